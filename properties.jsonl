{"id": "C01", "title": "Identifiers are unique and rejected duplicates change nothing", "statement": "For every history of add_variable/add_factor calls, get_all_variables()/get_all_factors() list exactly the accepted objects in the order of acceptance, no two listed objects share an id, get_variable(id) returns the accepted object with that id and null otherwise, and a call with an already used id throws and leaves the graph exactly as it was.", "quantifier": "every finite history of add_variable and add_factor calls with arbitrary ids", "why_tests_cant": "The history and the ids are unbounded; a test samples a few insertions.", "anchors": ["src/factorama/factor_graph.cpp:FactorGraph::add_variable", "src/factorama/factor_graph.cpp:FactorGraph::add_factor", "src/factorama/factor_graph.cpp:FactorGraph::get_variable"]}
{"id": "C02", "title": "Non-constant variables tile the columns", "statement": "After a successful finalize_structure(), the non-constant variables, taken in insertion order, occupy consecutive column ranges that are pairwise disjoint and exactly cover 0..num_values()-1; constant variables get width 0; num_values() is the sum of the sizes of the non-constant variables.", "quantifier": "every graph (any number, size, constness and ids of variables) for which finalize_structure succeeds", "why_tests_cant": "Unbounded numbers and sizes of variables.", "anchors": ["src/factorama/factor_graph.cpp:finalize_structure", "src/factorama/factor_graph.hpp:FactorGraph::variable_placement"]}
{"id": "C03", "title": "Factors tile the residual rows", "statement": "After a successful finalize_structure(), the factors in insertion order occupy consecutive residual ranges, pairwise disjoint, exactly covering 0..num_residuals()-1, and num_residuals() is the sum of residual sizes.", "quantifier": "every graph for which finalize_structure succeeds", "why_tests_cant": "Unbounded numbers and sizes of factors.", "anchors": ["src/factorama/factor_graph.cpp:finalize_structure"]}
{"id": "C04", "title": "finalize_structure accepts exactly the well-posed graphs", "statement": "finalize_structure() succeeds if and only if no factor holds a null variable, every non-constant variable of every factor has an id present in the graph, and the total residual size is at least the total number of free values; otherwise it throws.", "quantifier": "every graph reachable by any sequence of additions", "why_tests_cant": "Both directions quantify over all graphs.", "anchors": ["src/factorama/factor_graph.cpp:finalize_structure"]}
{"id": "C05", "title": "The residual vector is the concatenation of factor residuals in any hash order", "statement": "compute_full_residual_vector() returns the factors' residuals concatenated in insertion order: every entry is written exactly once whatever the unordered_map iteration order, whatever was in the output buffer, and whatever its previous size.", "quantifier": "every finalized graph, every iteration order of the hash map, every previous content of the buffer", "why_tests_cant": "Hash iteration order and leftover memory contents are not controllable from a test.", "anchors": ["src/factorama/factor_graph.cpp:FactorGraph::compute_full_residual_vector"]}
{"id": "C06", "title": "The dense Jacobian is the block assembly of the factor Jacobians", "statement": "For a finalized graph whose factors each list pairwise distinct variables, compute_full_jacobian_matrix() returns the matrix whose block at (rows of factor f, columns of variable v) is the Jacobian block f returns for v, and zero where f does not involve v; for every hash order and also when repeated after the variables moved.", "quantifier": "every finalized graph, every iteration order, every sequence of value changes between calls; ids identify the variables, no factor uses a variable twice, no Jacobian was computed before the last finalization (C08, C12)", "why_tests_cant": "Unbounded graphs, hash orders and call histories.", "anchors": ["src/factorama/factor_graph.cpp:FactorGraph::compute_full_jacobian_matrix"]}
{"id": "C07", "title": "The sparse Jacobian equals the dense one on first and every later evaluation", "statement": "For a finalized graph whose factors list pairwise distinct variables and return one correctly shaped block per variable, and of which at least one uses a free variable, compute_sparse_jacobian_matrix() succeeds and represents the same matrix as compute_full_jacobian_matrix(), on the first call (coefficient insertion) and on every later call (raw value copy), whatever values the variables have.", "quantifier": "every such graph and every number of evaluations with arbitrary variable values; ids identify the variables, no factor uses a variable twice, no Jacobian was computed before the last finalization (C08, C12)", "why_tests_cant": "The fast path relies on the storage layout of all columns of an arbitrary graph.", "anchors": ["src/factorama/factor_graph.cpp:FactorGraph::compute_sparse_jacobian_matrix", "src/factorama/factor_graph.cpp:FactorGraph::copy_sparse_data_to_eigen_matrix"]}
{"id": "C08", "title": "A factor may use the same variable in two roles", "statement": "If a factor lists the same free variable twice, the assembled Jacobian block of that variable is the sum of the two blocks (the derivative of the factor's residual), and re-evaluation keeps working.", "quantifier": "every finalized graph containing such a factor", "why_tests_cant": "Requires all graphs; also concerns the second evaluation only.", "anchors": ["src/factorama/factor_graph.cpp:FactorGraph::compute_full_jacobian_matrix", "src/factorama/factor_graph.cpp:FactorGraph::compute_sparse_jacobian_matrix"]}
{"id": "C09", "title": "apply_increment gives each free variable exactly its own segment", "statement": "On a finalized, unmodified graph apply_increment(dx) with the right length applies to every non-constant variable exactly the part of dx at that variable's columns, once; constant variables and everything else are untouched. With a wrong length, or before finalization, it throws and changes nothing.", "quantifier": "every finalized graph, every dx", "why_tests_cant": "Unbounded graphs and increments.", "anchors": ["src/factorama/factor_graph.cpp:FactorGraph::apply_increment"]}
{"id": "C10", "title": "Variable vector round trip", "statement": "On a finalized graph get_variable_vector() is the concatenation of the free variables' values in insertion order; set_variable_values_from_vector(get_variable_vector()) leaves the graph unchanged; and for variables that store what they are given, get after set(x) returns x.", "quantifier": "every finalized graph and every vector of the right length", "why_tests_cant": "Unbounded graphs and values.", "anchors": ["src/factorama/factor_graph.cpp:FactorGraph::get_variable_vector", "src/factorama/factor_graph.cpp:FactorGraph::set_variable_values_from_vector"]}
{"id": "C11", "title": "Numeric queries before finalization are refused", "statement": "Before finalize_structure() has succeeded, apply_increment, both residual computations, both Jacobian computations, compute_full_jacobian_and_residual and detailed_factor_test throw and change nothing; jacobian(), sparse_jacobian() and residual() throw until the corresponding computation has succeeded once.", "quantifier": "every history of calls that does not contain a finalize_structure call", "why_tests_cant": "All histories.", "anchors": ["src/factorama/factor_graph.cpp:FactorGraph::apply_increment", "src/factorama/factor_graph.hpp:FactorGraph::jacobian", "src/factorama/factor_graph.hpp:FactorGraph::residual"]}
{"id": "C12", "title": "A finalized graph can be extended and finalized again", "statement": "After adding variables/factors and calling finalize_structure() again, residuals, dense and sparse Jacobians are those of the extended graph.", "quantifier": "every history of additions, finalizations and evaluations", "why_tests_cant": "The failure depends on the order of calls in the history.", "anchors": ["src/factorama/factor_graph.cpp:finalize_structure", "src/factorama/factor_graph.cpp:FactorGraph::copy_sparse_data_to_eigen_matrix"]}
{"id": "C13", "title": "Placement lookups are keyed by id", "statement": "After finalization variable_placement(id) returns the placement of the variable with that id and factor_placement(id) the placement of the factor with that id; unknown ids are reported invalid.", "quantifier": "every finalized graph and every id", "why_tests_cant": "All assignments of ids.", "anchors": ["src/factorama/factor_graph.hpp:FactorGraph::variable_placement", "src/factorama/factor_graph.hpp:FactorGraph::factor_placement"]}
{"id": "C14", "title": "A failed finalize_structure is harmless", "statement": "If finalize_structure() throws, the graph behaves as before the call (in particular a graph that was usable stays usable and no undefined behaviour follows).", "quantifier": "every graph and every call sequence around the failing call", "why_tests_cant": "Depends on exception point and history.", "anchors": ["src/factorama/factor_graph.cpp:finalize_structure"]}
{"id": "C15", "title": "Constness may be toggled after finalization", "statement": "After set_constant() is toggled on a variable of a finalized graph, the Jacobians computed afterwards have zero columns for constant variables, and nothing outside the intended columns is written.", "quantifier": "every finalized graph, every toggled variable, every sequence of evaluations", "why_tests_cant": "Depends on evaluation history.", "anchors": ["src/factorama/base_types.hpp:Variable::set_constant", "src/factorama/factor_graph.cpp:FactorGraph::compute_full_jacobian_matrix"]}
{"id": "C16", "title": "Adding objects after finalization is detected", "statement": "If variables or factors are added after finalize_structure() and the graph is not finalized again, later numeric calls either ignore the additions or throw; they never run into undefined behaviour.", "quantifier": "every history with additions after finalization", "why_tests_cant": "Undefined behaviour is not reliably observable in a test.", "anchors": ["src/factorama/factor_graph.cpp:FactorGraph::add_factor", "src/factorama/factor_graph.cpp:FactorGraph::compute_sparse_jacobian_matrix"]}
{"id": "C17", "title": "optimize terminates with a final status within the iteration budget", "statement": "Every call of optimize() on a graph whose residual can be evaluated returns; the final status is never RUNNING; current_iteration never exceeds max_num_iterations; the initial statistics are those of the starting point. This holds for arbitrary arithmetic including NaN and infinities.", "quantifier": "every graph, settings, linear solver behaviour and floating point arithmetic", "why_tests_cant": "All arithmetic outcomes including NaN, all solvers.", "anchors": ["src/factorama/sparse_optimizer.cpp:SparseOptimizer::optimize"]}
{"id": "C18", "title": "Levenberg-Marquardt never increases the cost", "statement": "During optimize() with LevenbergMarquardt the reported cost never increases from one iteration to the next, and the final residual norm is at most the initial one, whatever the linear solver returns.", "quantifier": "every graph, settings, starting point, solver", "why_tests_cant": "All problems and all solver answers.", "anchors": ["src/factorama/sparse_optimizer.cpp:SparseOptimizer::single_step_levenberg_marquardt"]}
{"id": "C19", "title": "A rejected Levenberg-Marquardt trial restores every variable", "statement": "When no trial step of an LM iteration is accepted, all variable values after the iteration equal the values before it.", "quantifier": "every graph, start values, settings, solver answers", "why_tests_cant": "All values; exactness for every variable type.", "anchors": ["src/factorama/sparse_optimizer.cpp:SparseOptimizer::single_step_levenberg_marquardt"]}
{"id": "C20", "title": "Constant variables are never modified by the optimizer", "statement": "optimize() leaves every constant variable (and every variable that is not part of the graph) exactly as it was.", "quantifier": "every graph, method, settings, solver answers", "why_tests_cant": "All variable types and all rejection patterns.", "anchors": ["src/factorama/sparse_optimizer.cpp:SparseOptimizer::optimize"]}
{"id": "C21", "title": "The damping parameter stays within its configured bounds", "statement": "During LM the damping parameter never exceeds max_lambda when it started below it, and never drops below 1e-12.", "quantifier": "every graph, settings and solver answers", "why_tests_cant": "Depends on arbitrary sequences of solver failures.", "anchors": ["src/factorama/sparse_optimizer.cpp:SparseOptimizer::single_step_levenberg_marquardt"]}
{"id": "C22", "title": "valid and status agree", "statement": "After optimize(), valid is false exactly when the status is an error status (SINGULAR_HESSIAN, ILL_CONDITIONED, DIVERGED, FAILED).", "quantifier": "every run of optimize", "why_tests_cant": "All runs.", "anchors": ["src/factorama/sparse_optimizer.cpp:SparseOptimizer::optimize"]}
{"id": "C23", "title": "A NaN residual is not reported as success", "statement": "If the residual norm becomes NaN, optimize() does not end with status SUCCESS and valid = true.", "quantifier": "every graph and starting point", "why_tests_cant": "Floating point corner case over all histories.", "anchors": ["src/factorama/sparse_optimizer.cpp:SparseOptimizer::optimize"]}
{"id": "C24", "title": "One Gauss-Newton step solves linear problems", "statement": "If all residuals are affine in the variables' values, increments are additive, the learning rate is 1 and the linear system is solved exactly, one Gauss-Newton step reaches a global minimiser of the squared residual norm from every starting point, and the next step is zero.", "quantifier": "every affine problem of every size, every starting point; ids identify the variables, no factor uses a variable twice, no Jacobian was computed before the last finalization (C08, C12)", "why_tests_cant": "All problems, dimensions and starting points.", "anchors": ["src/factorama/sparse_optimizer.cpp:single_step_gauss_newton"]}
{"id": "C25", "title": "Levenberg-Marquardt steps exist, are unique and descend", "statement": "For every Jacobian and every damping > 0 the damped normal equations have exactly one solution; its directional derivative of the cost is negative unless the gradient is zero; Gauss-Newton and LM steps vanish exactly at stationary points (full rank for GN).", "quantifier": "every matrix of every shape, every residual, every positive damping", "why_tests_cant": "All matrices.", "anchors": ["src/factorama/sparse_optimizer.cpp:SparseOptimizer::single_step_levenberg_marquardt"]}
{"id": "C26", "title": "Starting at the optimum is reported as success", "statement": "If the start point is already a minimiser (for instance zero residual), optimize() ends with SUCCESS and valid = true and does not move the variables.", "quantifier": "every graph whose initial residual is zero, both methods", "why_tests_cant": "All graphs.", "anchors": ["src/factorama/sparse_optimizer.cpp:SparseOptimizer::single_step_levenberg_marquardt"]}
{"id": "C27", "title": "Reported statistics describe the final variables", "statement": "After optimize() the reported chi2 and residual_norm are the squared norm and norm of the residual vector evaluated at the variables' final values, unless an exception interrupted the last step.", "quantifier": "every run of optimize with either method", "why_tests_cant": "All runs.", "anchors": ["src/factorama/sparse_optimizer.cpp:SparseOptimizer::optimize"]}
{"id": "C28", "title": "Exceptions inside an iteration do not escape optimize", "statement": "Exceptions thrown by factors or variables during an iteration are turned into status FAILED and valid = false; optimize() throws only if no graph is set or the initial residual cannot be evaluated.", "quantifier": "every graph, factor behaviour, settings", "why_tests_cant": "All exception points.", "anchors": ["src/factorama/sparse_optimizer.cpp:SparseOptimizer::optimize"]}
{"id": "C29", "title": "Covariance is only reported when it is meaningful", "statement": "estimate_covariance reports valid only if optimize() has completed since setup, the Hessian was prepared and factorised, and the variable is non-null, non-constant, of positive size and placed in the graph; otherwise it reports invalid with an empty matrix.", "quantifier": "every history of setup/optimize/prepare/estimate calls", "why_tests_cant": "All histories.", "anchors": ["src/factorama/sparse_optimizer.cpp:SparseOptimizer::estimate_covariance"]}
{"id": "C30", "title": "A reported covariance is the block of the inverse normal matrix", "statement": "After optimize() and prepare_to_estimate_covariances(), with an exact solver, the matrix reported for a variable is symmetric, positive semidefinite, of the variable's size, and when J^T J is invertible equals the diagonal block of (J^T J)^-1 at that variable's columns.", "quantifier": "every graph, every Jacobian", "why_tests_cant": "All matrices and sizes.", "anchors": ["src/factorama/sparse_optimizer.cpp:SparseOptimizer::estimate_covariance", "src/factorama/sparse_optimizer.cpp:SparseOptimizer::prepare_to_estimate_covariances"]}
{"id": "C31", "title": "Covariances follow the latest optimization", "statement": "After every further optimize(), prepare_to_estimate_covariances() and estimate_covariance describe the latest solution.", "quantifier": "every history of optimize/prepare/estimate calls", "why_tests_cant": "All histories.", "anchors": ["src/factorama/sparse_optimizer.cpp:SparseOptimizer::prepare_to_estimate_covariances"]}
{"id": "C32", "title": "ExpMapSO3 returns rotations", "statement": "For every vector whose norm is at least 1e-10 ExpMapSO3 returns an orthogonal matrix with determinant 1, the rotation about the vector by its norm (Rodrigues); for smaller norms it differs from orthogonality by at most the square of the norm.", "quantifier": "every real 3-vector", "why_tests_cant": "Continuum of inputs.", "anchors": ["src/factorama/random_utils.cpp:ExpMapSO3"]}
{"id": "C33", "title": "LogMapSO3 and ExpMapSO3 are inverse", "statement": "ExpMapSO3(LogMapSO3(R)) = R for every rotation matrix R with rotation angle at least 1e-5 (including angles near and equal to pi), the result has norm at most pi; LogMapSO3(ExpMapSO3(w)) = w for every w with 1e-5 <= |w| <= pi - 1e-3; below 1e-5 the rotation vector is shortened from theta to sin(theta).", "quantifier": "every rotation matrix / every vector in the range", "why_tests_cant": "Continuum including the antipodal set.", "anchors": ["src/factorama/random_utils.cpp:LogMapSO3", "src/factorama/random_utils.cpp:ExpMapSO3"]}
{"id": "C34", "title": "skew and unskew", "statement": "skew(v) w is the cross product, skew(v) is antisymmetric and linear, unskew(skew(v)) = v for all v.", "quantifier": "all vectors", "why_tests_cant": "Continuum.", "anchors": ["src/factorama/random_utils.cpp:skew_symmetric", "src/factorama/random_utils.cpp:unskew"]}
{"id": "C35", "title": "compute_inverse_right_jacobian_so3 is the derivative of the logarithm", "statement": "For a rotation E with rotation vector w away from 0 and pi, the derivative of d -> LogMapSO3(ExpMapSO3(d) E) at d = 0 is compute_inverse_right_jacobian_so3(w).", "quantifier": "every rotation with angle in (1e-5, pi - 1e-3)", "why_tests_cant": "Continuum; derivative.", "anchors": ["src/factorama/random_utils.cpp:compute_inverse_right_jacobian_so3"]}
{"id": "C36", "title": "Planar angles are wrapped", "statement": "A Pose2DVariable's heading is always in (-pi, pi], differs from the requested angle by a multiple of 2 pi, and is unchanged by re-wrapping, after any history of construction, set, increment and set_theta calls.", "quantifier": "every history and every real angle", "why_tests_cant": "Continuum and histories.", "anchors": ["src/factorama/pose_2d_variable.hpp:Pose2DVariable"]}
{"id": "C37", "title": "Pose increments compose rotations", "statement": "PoseVariable::apply_increment([dp, dw]) adds dp to the position and replaces the rotation matrix by ExpMapSO3(dw) * R; after every history the stored matrix is a rotation that agrees with the stored rotation vector.", "quantifier": "every pose, every increment, every history", "why_tests_cant": "Continuum and histories; thresholds near identity.", "anchors": ["src/factorama/pose_variable.cpp:PoseVariable::apply_increment"]}
{"id": "C38", "title": "Plane normals stay unit length", "statement": "After every history of construction, set and increments with non-degenerate normals, a PlaneVariable's normal has norm 1, and distance_from_point(p) is the signed distance n.p + d.", "quantifier": "every history and every real input", "why_tests_cant": "Continuum and histories.", "anchors": ["src/factorama/plane_variable.hpp:PlaneVariable"]}
{"id": "C39", "title": "Inverse range stays within bounds", "statement": "With the default bounds, after every history of set/increment calls an InverseRangeVariable's inverse range lies in [1e-6, 1e3] and its 3D point lies on the ray from the origin along the bearing at distance 1/inverse_range.", "quantifier": "every history and every real input", "why_tests_cant": "Continuum and histories.", "anchors": ["src/factorama/inverse_range_variable.hpp:InverseRangeVariable"]}
{"id": "C40", "title": "Linear variables are additive", "statement": "For GenericVariable and LandmarkVariable increments add componentwise; increments compose by addition and an increment followed by its negative restores the value; size never changes; wrong sizes throw without effect.", "quantifier": "every value and every increment of every dimension", "why_tests_cant": "Continuum, every dimension.", "anchors": ["src/factorama/generic_variable.hpp:GenericVariable", "src/factorama/landmark_variable.hpp:LandmarkVariable"]}
{"id": "C41", "title": "set_value_from_vector(value()) is the identity", "statement": "For every variable type and every reachable state, writing back the value that was read leaves the variable unchanged (the optimizer's rollback and the numerical Jacobian rely on it).", "quantifier": "every variable type, every reachable state", "why_tests_cant": "Continuum and histories.", "anchors": ["src/factorama/base_types.hpp:Variable::set_value_from_vector"]}
{"id": "C42", "title": "GenericPriorFactor", "statement": "The residual is (value - prior)/sigma, zero exactly at the prior, and for additive variables the returned Jacobian is the derivative of the residual under apply_increment.", "quantifier": "every real configuration in the stated domain and every sigma", "why_tests_cant": "Continuum of inputs; a derivative is a limit.", "anchors": ["src/factorama/generic_prior_factor.hpp:GenericPriorFactor"]}
{"id": "C43", "title": "GenericBetweenFactor", "statement": "The residual is ((b - a) - measured)/sigma, zero exactly when b - a = measured, and the three returned blocks are its derivatives under the increments of the three variables.", "quantifier": "every real configuration in the stated domain and every sigma", "why_tests_cant": "Continuum of inputs; a derivative is a limit.", "anchors": ["src/factorama/generic_between_factor.hpp:GenericBetweenFactor"]}
{"id": "C44", "title": "Pose position factors", "statement": "PosePositionPriorFactor and PosePositionBetweenFactor (world and local frame) have residual zero exactly when the stated position relation holds, and their Jacobian blocks are the derivatives of the residual under exact pose increments (position added, rotation applied on the left), and under apply_increment wherever that is differentiable.", "quantifier": "every real configuration in the stated domain and every sigma", "why_tests_cant": "Continuum of inputs; a derivative is a limit.", "anchors": ["src/factorama/pose_prior_factors.hpp:PosePositionPriorFactor"]}
{"id": "C45", "title": "Pose orientation factors", "statement": "PoseOrientationPriorFactor, RotationPriorFactor and PoseOrientationBetweenFactor have residual zero exactly when the rotations agree, and their Jacobian blocks are the derivatives of the residual under exact rotation increments when the rotation error is zero or neither tiny (1e-5) nor close to a half turn (1e-3).", "quantifier": "every real configuration in the stated domain and every sigma", "why_tests_cant": "Continuum of inputs; a derivative is a limit.", "anchors": ["src/factorama/pose_prior_factors.hpp:PoseOrientationPriorFactor"]}
{"id": "C46", "title": "Bearing observation (3D)", "statement": "The residual is the weighted difference of predicted and observed unit bearing, zero exactly when the landmark lies on the observed ray in front of the camera; the Jacobian blocks are its derivatives under exact pose increments for landmarks at least 1e-9 away from the camera; the residual does not change when pose and landmark are moved together by a rigid motion.", "quantifier": "every real configuration in the stated domain and every sigma", "why_tests_cant": "Continuum of inputs; a derivative is a limit.", "anchors": ["src/factorama/bearing_observation_factor.cpp:BearingObservationFactor"]}
{"id": "C47", "title": "Inverse range bearing", "statement": "The residual is the weighted difference between predicted bearing of the inverse-range point and observed bearing; the Jacobian blocks are its derivatives with respect to exact pose increments and the increment of the inverse range.", "quantifier": "every real configuration in the stated domain and every sigma", "why_tests_cant": "Continuum of inputs; a derivative is a limit.", "anchors": ["src/factorama/inverse_range_bearing_factor.cpp:InverseRangeBearingFactor"]}
{"id": "C48", "title": "Bearing projection 2D", "statement": "The two tangent directions are orthonormal and orthogonal to the observed bearing for every bearing; the residual vanishes exactly on the observed ray in front of the camera; away from the depth threshold the Jacobian blocks are the derivatives of the residual under exact pose increments.", "quantifier": "every real configuration in the stated domain and every sigma", "why_tests_cant": "Continuum of inputs; a derivative is a limit.", "anchors": ["src/factorama/bearing_projection_factor_2d.cpp:BearingProjectionFactor2D"]}
{"id": "C49", "title": "Planar bearing", "statement": "The residual is the wrapped difference of predicted and observed bearing, in (-pi, pi] over sigma, zero exactly when the landmark lies in the observed direction; the Jacobian blocks are its derivatives for landmarks at least 1e-9 away that are not exactly opposite to the observed direction; it is invariant under planar rigid motions.", "quantifier": "every real configuration in the stated domain and every sigma", "why_tests_cant": "Continuum of inputs; a derivative is a limit.", "anchors": ["src/factorama/bearing_observation_factor_2d.cpp:BearingObservationFactor2D"]}
{"id": "C50", "title": "Planar range-bearing", "statement": "The residual vanishes exactly when range and bearing match the observation; the Jacobian blocks are its derivatives for landmarks at least 1e-9 away that are not exactly opposite to the observed direction; it is invariant under planar rigid motions.", "quantifier": "every real configuration in the stated domain and every sigma", "why_tests_cant": "Continuum of inputs; a derivative is a limit.", "anchors": ["src/factorama/range_bearing_factor_2d.cpp:RangeBearingFactor2D"]}
{"id": "C51", "title": "Planar pose prior", "statement": "The residual is zero exactly when the position equals the prior and the heading equals it modulo 2 pi, it is invariant under adding 2 pi to either heading, and the Jacobian is its derivative unless the heading error is exactly pi.", "quantifier": "every real configuration in the stated domain and every sigma", "why_tests_cant": "Continuum of inputs; a derivative is a limit.", "anchors": ["src/factorama/pose_2d_prior_factor.cpp:Pose2DPriorFactor"]}
{"id": "C52", "title": "Planar pose between", "statement": "The residual is zero exactly when the measured relative pose holds; in local_frame mode the position is measured in pose_a's frame, so the residual does not change when the world is rotated; the Jacobian blocks are derivatives of the residual unless the heading error is exactly pi.", "quantifier": "every real configuration in the stated domain and every sigma", "why_tests_cant": "Continuum of inputs; a derivative is a limit.", "anchors": ["src/factorama/pose_2d_between_factor.cpp:Pose2DBetweenFactor"]}
{"id": "C53", "title": "Plane factor", "statement": "The residual is zero exactly when the point lies on the plane, with and without distance scaling, and the Jacobian blocks are its derivatives.", "quantifier": "every real configuration in the stated domain and every sigma", "why_tests_cant": "Continuum of inputs; a derivative is a limit.", "anchors": ["src/factorama/plane_factor.cpp:PlaneFactor"]}
{"id": "C54", "title": "Plane prior", "statement": "The residual is zero exactly when the plane equals the prior plane (unit normal and distance) and the Jacobian is its derivative under the plane increment.", "quantifier": "every real configuration in the stated domain and every sigma", "why_tests_cant": "Continuum of inputs; a derivative is a limit.", "anchors": ["src/factorama/plane_prior_factor.cpp:PlanePriorFactor"]}
{"id": "C55", "title": "Linear velocity", "statement": "The residual is zero exactly when the position difference equals velocity times dt, and the Jacobian blocks are its derivatives.", "quantifier": "every real configuration in the stated domain and every sigma", "why_tests_cant": "Continuum of inputs; a derivative is a limit.", "anchors": ["src/factorama/linear_velocity_factor.cpp:LinearVelocityFactor"]}
{"id": "C56", "title": "Coordinate transform", "statement": "The residual vanishes exactly when the two landmarks are related by the scaled rigid transform, and the five Jacobian blocks are its derivatives.", "quantifier": "every real configuration in the stated domain and every sigma", "why_tests_cant": "Continuum of inputs; a derivative is a limit.", "anchors": ["src/factorama/coordinate_transform_factor.cpp:CoordinateTransformFactor"]}
{"id": "C57", "title": "One Jacobian block per variable", "statement": "compute_jacobians returns exactly one block per variable, in the order of variables(), empty exactly for constant variables and otherwise residual_size x variable size, whatever the output vector contained before.", "quantifier": "every factor type, every constness pattern, every previous content of the output vector", "why_tests_cant": "All constness patterns and buffer histories.", "anchors": ["src/factorama/base_types.hpp:Factor::compute_jacobians", "src/factorama/generic_prior_factor.hpp:GenericPriorFactor", "src/factorama/coordinate_transform_factor.cpp:CoordinateTransformFactor"]}
{"id": "C58", "title": "Huber kernel", "statement": "The Huber kernel leaves residuals with norm at most delta unchanged, keeps the direction of larger ones, scales their norm to sqrt(delta * norm) (so continuous and never larger than the input), and its Jacobian is the derivative of the kernelised residual.", "quantifier": "all residuals, Jacobians and thresholds", "why_tests_cant": "Continuum.", "anchors": ["src/factorama/kernels.hpp:HuberKernel"]}
{"id": "C59", "title": "A robust kernel set on a factor takes effect", "statement": "After SetKernel the residual the graph evaluates for that factor is the kernelised one.", "quantifier": "every factor and kernel", "why_tests_cant": "All factors.", "anchors": ["src/factorama/base_types.hpp:Factor::SetKernel"]}
{"id": "C60", "title": "Numerical Jacobian is exact on quadratics and restores the variables", "statement": "ComputeNumericalJacobians leaves all variables unchanged and returns the exact derivative when the residual is a polynomial of degree at most two in the increment; otherwise the error is at most a sixth of the third derivative times the square of the step size; constant variables get empty blocks.", "quantifier": "every factor, every variable type whose write-back is exact, every step size", "why_tests_cant": "Continuum.", "anchors": ["src/factorama/numerical_jacobian.hpp:ComputeNumericalJacobians"]}
{"id": "C61", "title": "detailed_factor_test is sound", "statement": "detailed_factor_test returns true only if for every factor analytic and numerical Jacobians have the same number of blocks and every entry differs by less than the documented tolerance; any larger discrepancy makes it return false.", "quantifier": "every graph, tolerance and Jacobian values", "why_tests_cant": "All discrepancies.", "anchors": ["src/factorama/factor_graph.cpp:FactorGraph::detailed_factor_test"]}
{"id": "C62", "title": "Stopwatch accounting", "statement": "For every sequence of start/stop/reset calls at non-decreasing times, elapsed() is the total length of the intervals in which the watch was running since the last reset; redundant starts and stops have no effect.", "quantifier": "every sequence of calls and every non-decreasing clock", "why_tests_cant": "All call histories.", "anchors": ["src/factorama/stopwatch.hpp:Stopwatch"]}
{"id": "C63", "title": "Optimizing only changes values", "statement": "What optimize() does to the variables and the graph is a finite sequence of public residual/Jacobian evaluations and variable value changes; ids, sizes, constness, placements and the finalized state are as before.", "quantifier": "every finalized graph, solver, settings and outcome including exceptions", "why_tests_cant": "All executions.", "anchors": ["src/factorama/sparse_optimizer.cpp:SparseOptimizer::optimize"]}
{"id": "C64", "title": "An interrupted iteration leaves no half-applied step", "statement": "If a factor or variable throws during an iteration, the variables hold the values they had before that iteration when optimize() returns.", "quantifier": "every graph and every point at which an exception is thrown", "why_tests_cant": "All crash points.", "anchors": ["src/factorama/sparse_optimizer.cpp:SparseOptimizer::optimize"]}
{"id": "C65", "title": "Huber kernel realises the documented loss", "statement": "Half the squared norm of the kernelised residual equals the Huber loss documented with the kernel: half the squared norm up to delta, delta * (norm - delta / 2) beyond.", "quantifier": "all residuals and thresholds", "why_tests_cant": "Continuum.", "anchors": ["src/factorama/kernels.hpp:HuberKernel"]}
{"id": "C66", "title": "The stop rules and the final status", "statement": "A run goes on after an iteration exactly when the iteration reported no error and none of the stop rules (step below step_tolerance, residual norm grown, residual norm fallen by less than residual_tolerance, tenfold growth) applies; the final status and validity follow from the rule that ended the run, in the order of the rules, and a run that used up its iterations reports SUCCESS.", "quantifier": "every graph, settings, method and execution", "why_tests_cant": "All executions.", "anchors": ["src/factorama/sparse_optimizer.cpp:SparseOptimizer::optimize", "src/factorama/sparse_optimizer.hpp:OptimizerSettings"]}
{"id": "C67", "title": "What one iteration does", "statement": "Every Gauss-Newton iteration evaluates residual and Jacobian at the current variables, solves the normal equations and adds learning_rate times the solution to the free variables, or leaves them alone and reports why the system was refused. Every Levenberg-Marquardt iteration tries damped systems, with the damping following initial_lambda, lambda_up_factor, lambda_down_factor and max_lambda, and keeps the first step that lowers the cost, or no step. An iteration returns unless an increment or an evaluation fails.", "quantifier": "every graph, settings and point of the run", "why_tests_cant": "All executions.", "anchors": ["src/factorama/sparse_optimizer.cpp:SparseOptimizer::single_step_gauss_newton", "src/factorama/sparse_optimizer.cpp:SparseOptimizer::single_step_levenberg_marquardt"]}
{"id": "C68", "title": "The graph's Jacobian is the derivative of its residual", "statement": "The full Jacobian is the derivative, at zero, of the full residual vector as a function of the vector passed to apply_increment; in particular the columns of a free variable are the derivative with respect to the part of that vector which belongs to this variable.", "quantifier": "every finalized graph of library variables and factors, at all values where every factor's residual is differentiable and its own Jacobian is right (C42-C56 say where); ids identify the variables, no factor uses a variable twice, no Jacobian was computed before the last finalization (C08, C12)", "why_tests_cant": "Continuum of values, all graphs.", "anchors": ["src/factorama/factor_graph.cpp:FactorGraph::compute_full_jacobian_matrix", "src/factorama/factor_graph.cpp:FactorGraph::apply_increment"]}
{"id": "C69", "title": "A zero increment changes nothing", "statement": "apply_increment with a vector of zeros leaves a variable of any class as it is.", "quantifier": "every class and every reachable state of the variable", "why_tests_cant": "Continuum of states.", "anchors": ["src/factorama/pose_variable.cpp:PoseVariable::apply_increment", "src/factorama/rotation_variable.hpp:RotationVariable::apply_increment", "src/factorama/inverse_range_variable.cpp:InverseRangeVariable::apply_increment", "src/factorama/plane_variable.hpp:PlaneVariable::apply_increment"]}
{"id": "C70", "title": "Short enough steps lower the cost", "statement": "Where the gradient of the cost is not zero: every short enough increment along a direction of descent can be applied and lowers the cost; a Gauss-Newton iteration with a small enough positive learning rate returns and lowers the cost or reports that the system was refused; every large enough Levenberg-Marquardt damping gives a system that is accepted and a step that lowers the cost, and an iteration that starts with such a damping returns and lowers the cost.", "quantifier": "every graph of library variables and factors at points of differentiability, every learning rate below a bound, every damping above a bound, every point of a run; for Levenberg-Marquardt, variables that can be given their values back (C41)", "why_tests_cant": "A continuum of states and step lengths.", "anchors": ["src/factorama/sparse_optimizer.cpp:SparseOptimizer::single_step_gauss_newton", "src/factorama/sparse_optimizer.cpp:SparseOptimizer::single_step_levenberg_marquardt", "src/factorama/factor_graph.cpp:FactorGraph::apply_increment"]}
{"id": "C71", "title": "Levenberg-Marquardt fails only when no damping up to max_lambda helps", "statement": "If an iteration gives up without a step, no damping between the first one tried and max_lambda would have lowered the cost.", "quantifier": "every graph, settings and point of a run", "why_tests_cant": "All executions.", "anchors": ["src/factorama/sparse_optimizer.cpp:SparseOptimizer::single_step_levenberg_marquardt", "src/factorama/sparse_optimizer.hpp:OptimizerSettings"]}
{"id": "C72", "title": "Names tell the objects of a graph apart", "statement": "The variables of a graph have different names, and so have its factors.", "quantifier": "every history of calls, every set of library variables and factors", "why_tests_cant": "All histories.", "anchors": ["src/factorama/base_types.hpp:Variable::name", "src/factorama/base_types.hpp:Factor::name", "src/factorama/generic_prior_factor.hpp:GenericPriorFactor::name"]}
{"id": "C73", "title": "The reported type identifies the class", "statement": "Two variables, or two factors, report the same type exactly if they are objects of the same class.", "quantifier": "all pairs of classes", "why_tests_cant": "Every pair of classes, not the pairs a test happens to build.", "anchors": ["src/factorama/base_types.hpp:VariableType", "src/factorama/base_types.hpp:FactorType", "src/factorama/linear_velocity_factor.hpp:LinearVelocityFactor::type", "src/factorama/rotation_prior_factor.hpp:RotationPriorFactor::type", "src/factorama/bearing_projection_factor_2d.hpp:BearingProjectionFactor2D::type"]}
{"id": "C74", "title": "Lookup by class", "statement": "get_variables_of_type<T>() returns exactly the accepted variables that were constructed as a T, in order of acceptance.", "quantifier": "every history of calls and every class", "why_tests_cant": "All histories.", "anchors": ["src/factorama/factor_graph.hpp:FactorGraph::get_variables_of_type"]}
{"id": "C75", "title": "An optimizer that is set up again is as good as new", "statement": "After setup, nothing an optimizer did before matters: it and any other optimizer set up with the same graph and settings have the same outcome in every later call, leave the same variable values and graph, report the same covariances and, once optimize has returned, the same statistics.", "quantifier": "all pairs of optimizer histories (other graphs, failed or interrupted runs), every graph whose finalization never failed, every later sequence of calls", "why_tests_cant": "All pairs of histories.", "anchors": ["src/factorama/sparse_optimizer.cpp:SparseOptimizer::setup", "src/factorama/sparse_optimizer.cpp:SparseOptimizer::optimize", "src/factorama/sparse_optimizer.cpp:SparseOptimizer::estimate_covariance"]}
{"id": "C76", "title": "Undetermined problems are reported", "statement": "If the residual does not change, to first order, along some direction in which the variables could move (for instance because a free variable is used by no factor), a Gauss-Newton run returns, leaves all variables exactly as they were, reports FAILED and invalid statistics, and no covariance is reported after it.", "quantifier": "every graph, every point at which it is undetermined, all settings with at least one iteration; ids identify the variables, no factor uses a variable twice, no Jacobian was computed before the last finalization (C08, C12)", "why_tests_cant": "Every rank-deficient problem, in exact arithmetic.", "anchors": ["src/factorama/sparse_optimizer.cpp:SparseOptimizer::single_step_gauss_newton", "src/factorama/sparse_optimizer.cpp:SparseOptimizer::optimize", "src/factorama/sparse_optimizer.cpp:SparseOptimizer::estimate_covariance"]}
{"id": "C77", "title": "Relative measurements do not depend on the world frame", "statement": "The residual of a bearing, bearing projection, inverse range bearing, orientation difference, body-frame position difference, unscaled plane, planar bearing or planar range-bearing factor does not change when all objects it involves are turned and shifted together.", "quantifier": "all rigid motions, all states of the variables, all measurements and sigmas", "why_tests_cant": "Continuum of inputs.", "anchors": ["src/factorama/bearing_observation_factor.cpp:BearingObservationFactor", "src/factorama/bearing_projection_factor_2d.cpp:BearingProjectionFactor2D", "src/factorama/inverse_range_bearing_factor.cpp:InverseRangeBearingFactor", "src/factorama/pose_between_factors.cpp:PosePositionBetweenFactor", "src/factorama/range_bearing_factor_2d.cpp:RangeBearingFactor2D", "src/factorama/plane_factor.cpp:PlaneFactor"]}
{"id": "C78", "title": "A graph that floats in the world is reported", "statement": "If no factor measures where in the world things are (no position, planar pose or plane priors, no scaled plane factors, inverse ranges or coordinate transforms) and no factor uses a constant object that has a place in the world, a Gauss-Newton run returns, moves nothing and reports FAILED.", "quantifier": "every such graph and every point of it where the factors are differentiable; ids identify the variables, no factor uses a variable twice, no Jacobian was computed before the last finalization (C08, C12)", "why_tests_cant": "Every graph without an anchor.", "anchors": ["src/factorama/sparse_optimizer.cpp:SparseOptimizer::optimize", "src/factorama/factor_graph.cpp:FactorGraph::compute_sparse_jacobian_matrix"]}
{"id": "C79", "title": "Levenberg-Marquardt does not move what is not measured", "statement": "With positive damping settings a Levenberg-Marquardt step has no part along a direction the residual does not notice. A free variable that no factor uses keeps its state exactly during a run, and on a graph that floats in the world the sum of the positions of all variables stays the same from iteration to iteration.", "quantifier": "every graph, every point of a run, all positive damping settings", "why_tests_cant": "Every rank-deficient problem and every history of accepted and rejected trials.", "anchors": ["src/factorama/sparse_optimizer.cpp:SparseOptimizer::single_step_levenberg_marquardt"]}
{"id": "C80", "title": "A residual is the misfit in units of its standard deviation", "statement": "Each entry of a residual is the documented misfit divided by the given sigma: differences of positions, offsets and ranges; rotation angles for orientations (the residual has the length angle/sigma and turns one orientation into the other); planar angles in (-pi, pi]; the chord or the sine of the angle between the directions for 3D bearings, and its sine for plane normals. A plane factor with distance scaling uses sigma * (1 + distance / reference).", "quantifier": "every class of factor, all states of the variables, all measurements and sigmas", "why_tests_cant": "Continuum of inputs; a wrong weight applied consistently to residual and Jacobian passes every Jacobian test.", "anchors": ["src/factorama/pose_prior_factors.cpp:PosePositionPriorFactor", "src/factorama/pose_between_factors.cpp:PoseOrientationBetweenFactor", "src/factorama/bearing_observation_factor.cpp:BearingObservationFactor", "src/factorama/bearing_projection_factor_2d.cpp:BearingProjectionFactor2D", "src/factorama/range_bearing_factor_2d.cpp:RangeBearingFactor2D", "src/factorama/plane_factor.cpp:PlaneFactor"]}
{"id": "C81", "title": "Printing does not influence later calls", "statement": "print_structure, print_variables, print_jacobian_and_residual and print_all_covariances only report: every later call has the same outcome and the same results as without them.", "quantifier": "every history of calls, every later call", "why_tests_cant": "A printing call in the middle of any history; tests print at most at the end.", "anchors": ["src/factorama/factor_graph.cpp:FactorGraph::print_jacobian_and_residual", "src/factorama/sparse_optimizer.cpp:SparseOptimizer::print_all_covariances"]}
{"id": "C82", "title": "What is printed is true", "statement": "print_structure prints the numbers of variables, factors, residuals and free values of the graph. print_jacobian_and_residual prints the shape of the Jacobian, the norm of the residual and a warning for exactly the columns with norm below 1e-12, among them those of every free variable that no factor uses. print_all_covariances has a line for each variable, in order: constant, invalid, or the matrix that estimate_covariance reports.", "quantifier": "every history of calls, every graph", "why_tests_cant": "Every graph and history, including empty graphs and graphs extended after the finalization.", "anchors": ["src/factorama/factor_graph.cpp:FactorGraph::print_structure", "src/factorama/factor_graph.cpp:FactorGraph::print_jacobian_and_residual", "src/factorama/sparse_optimizer.cpp:SparseOptimizer::print_all_covariances"]}
{"id": "C83", "title": "The same program has the same results", "statement": "Two executions of one program agree: every call has the same outcome, and all variable values, residuals, Jacobians, statistics and covariances are the same, bit for bit. The order of hash tables and the contents of fresh memory, which may differ between platforms and runs, have no influence.", "quantifier": "every sequence of calls on graph, variables and optimizer, every pair of hash orders and memory contents, any arithmetic including rounding", "why_tests_cant": "A test runs on one standard library, with one hash order and mostly zeroed memory.", "anchors": ["src/factorama/factor_graph.cpp:FactorGraph::compute_full_residual_vector", "src/factorama/factor_graph.cpp:FactorGraph::compute_sparse_jacobian_matrix", "src/factorama/sparse_optimizer.cpp:SparseOptimizer::optimize"]}
{"id": "C84", "title": "The order of insertion does not matter", "statement": "Adding the same variables and factors in another order gives the same optimization: same outcome, statistics, final values and covariances.", "quantifier": "every graph, every pair of orders of insertion, all settings and starting points, exact arithmetic", "why_tests_cant": "All permutations of all graphs.", "anchors": ["src/factorama/factor_graph.cpp:FactorGraph::add_variable", "src/factorama/factor_graph.cpp:FactorGraph::add_factor", "src/factorama/sparse_optimizer.cpp:SparseOptimizer::optimize"]}
{"id": "C85", "title": "A linear system is refused exactly if it is badly conditioned", "statement": "A Gauss-Newton or damped linear system is refused exactly if the normal matrix has an eigenvalue below 1e-14 or two eigenvalues that differ by a factor of more than 1e12.", "quantifier": "every Jacobian and residual, every exact solver, exact arithmetic", "why_tests_cant": "Continuum of inputs; the check looks at the pivots of a factorisation, not at eigenvalues.", "anchors": ["src/factorama/sparse_optimizer.cpp:SparseOptimizer::single_step_gauss_newton", "src/factorama/sparse_optimizer.cpp:SparseOptimizer::single_step_levenberg_marquardt"]}
{"id": "C86", "title": "The graph keeps alive what it uses", "statement": "A program may give up its own handles to variables once the graph is built: every later call has the same outcome and the same results as if it had kept them.", "quantifier": "every program of calls on graph, variables and optimizer, with handles given up at any points, any contents of freed memory", "why_tests_cant": "Freed memory mostly keeps its contents in a test, so a dangling pointer goes unnoticed; every point of every program.", "anchors": ["src/factorama/factor_graph.hpp:FactorGraph", "src/factorama/generic_between_factor.hpp:GenericBetweenFactor", "src/factorama/factor_graph.cpp:FactorGraph::finalize_structure"]}
{"id": "C87", "title": "What is set is what is read back", "statement": "A value given to a constructor or setter of a variable is the one its accessors return: rotation matrices, positions, vectors, plane distances, planar positions, ranges and inverse ranges; plane normals up to their length, planar angles up to full turns.", "quantifier": "every class of variable, every value (within the documented bounds), every state before", "why_tests_cant": "Continuum of inputs; branches of the conversion between matrices and rotation vectors.", "anchors": ["src/factorama/pose_variable.cpp:PoseVariable::set_dcm_CW", "src/factorama/pose_variable.cpp:PoseVariable::recompute_dcm_CW", "src/factorama/plane_variable.hpp:PlaneVariable", "src/factorama/pose_2d_variable.cpp:Pose2DVariable", "src/factorama/inverse_range_variable.cpp:InverseRangeVariable", "src/factorama/rotation_variable.hpp:RotationVariable"]}
{"id": "C88", "title": "A copy of a graph is the same problem", "statement": "FactorGraph can be copied, and an optimizer is usually given a copy. Going on with the copy has the same outcomes and results as going on with the original; and after any use of the two graphs side by side, evaluating the original and evaluating the copy give the same residual and the same Jacobians.", "quantifier": "every finalized graph, evaluated before or not, every later program, every interleaving of calls on the original, the copy and the optimizer", "why_tests_cant": "All histories before and after the copy; the copy shares the variables but not the caches and the sparse storage.", "anchors": ["src/factorama/factor_graph.hpp:FactorGraph", "EXAMPLES.md", "src/factorama/factor_graph.cpp:FactorGraph::compute_sparse_jacobian_matrix"]}
{"id": "C89", "title": "The rank check reports a rank", "statement": "With check_rank_deficiency enabled, the statistics of a completed successful optimization contain the rank of the problem.", "quantifier": "every history of calls, all settings", "why_tests_cant": "All problems and settings; a test of the default settings never looks.", "anchors": ["src/factorama/sparse_optimizer.hpp:OptimizerSettings", "src/factorama/sparse_optimizer.hpp:OptimizerStats", "src/factorama/sparse_optimizer.cpp:SparseOptimizer::optimize"]}
{"id": "C90", "title": "Output settings do not influence results", "statement": "verbose and check_rank_deficiency do not influence what the optimizer computes: two programs that differ only in these settings have the same outcomes, values, statistics and covariances. With verbose off, optimize prints nothing but the notice that an exception ended an iteration.", "quantifier": "every program of calls on graph, variables and optimizer, any linear algebra and arithmetic, any factors", "why_tests_cant": "Every branch of the optimizer contains output statements; a side effect in one of them shows only with that setting on that branch.", "anchors": ["src/factorama/sparse_optimizer.cpp:SparseOptimizer::optimize", "src/factorama/sparse_optimizer.cpp:SparseOptimizer::single_step_levenberg_marquardt", "src/factorama/sparse_optimizer.cpp:SparseOptimizer::single_step_gauss_newton"]}
{"id": "C91", "title": "What a verbose optimization reports is true", "statement": "The reports about single steps tell the residual norm before and after the step, the length of the step, the shape of the Jacobian, the damping, the number of attempts and whether a step was accepted. The summary tells the final residual norm, its improvement, the number of iterations, the status, and SUCCESS only if the optimization did not fail.", "quantifier": "every finalized graph, all settings, every iteration of every run", "why_tests_cant": "Output is never compared in tests; all branches and iterations.", "anchors": ["src/factorama/sparse_optimizer.cpp:SparseOptimizer::optimize", "src/factorama/sparse_optimizer.cpp:SparseOptimizer::single_step_levenberg_marquardt", "src/factorama/sparse_optimizer.cpp:SparseOptimizer::single_step_gauss_newton"]}
{"id": "C92", "title": "The times in the summary are those of this call", "statement": "The times a verbose optimization shows for residuals, Jacobians, normal equations, solving and updating are times spent in this call of optimize, whatever was measured before.", "quantifier": "every run, every earlier use of the optimizer, all clock readings", "why_tests_cant": "Depends on the whole earlier life of the optimizer and on the clock.", "anchors": ["src/factorama/sparse_optimizer.cpp:SparseOptimizer::optimize", "src/factorama/stopwatch.hpp:Stopwatch"]}
{"id": "C93", "title": "The logarithm on the sphere is the rotation between two directions", "statement": "For unit vectors a and b, LogMapS2(a, b) is the rotation vector of the shortest rotation that takes a to b: rotating a by it gives b, its length is the angle between them, and it is perpendicular to both.", "quantifier": "every pair of unit vectors, exact arithmetic", "why_tests_cant": "Continuum of inputs; the special cases are parallel and opposite vectors.", "anchors": ["src/factorama/random_utils.cpp:LogMapS2"]}
{"id": "C94", "title": "Every graph can be drawn", "statement": "PlotFactorGraph draws every graph built from the library's variables and factors, in 2D and in 3D, with and without covariances, without raising an exception.", "quantifier": "every graph of well-formed variables and factors, all values, all options, all covariances", "why_tests_cant": "All combinations of classes; an accessor missing for one class shows only with that class.", "anchors": ["python_bindings/python/factorama/__init__.py:PlotFactorGraph", "python_bindings/python/factorama/__init__.py:_plot_bearing_lines"]}
{"id": "C95", "title": "A drawing shows every variable where it is", "statement": "Every variable that has a position is shown by one marker at its position, and there are no other markers. The orientation of a pose is shown by arrows along its axes, that of a planar pose by an arrow along its heading.", "quantifier": "every graph, all values, all options", "why_tests_cant": "Continuum of values; the conventions of rotation matrices and the order of drawing must fit for all orientations.", "anchors": ["python_bindings/python/factorama/__init__.py:PlotFactorGraph", "python_bindings/python/factorama/__init__.py:_plot_3d_pose_arrows"]}
{"id": "C96", "title": "Measurement lines show the residuals", "statement": "Every bearing and range measurement has a line from the observer, and its end misses the landmark by what the residual of the factor says in units of sigma, so that a line ends at the landmark exactly if the residual is zero. Every relation between poses has a line between them. There are no other lines.", "quantifier": "every graph, all values, measurements and sigmas", "why_tests_cant": "Continuum of inputs; the drawing computes the direction anew, with conventions that must agree with the factor's.", "anchors": ["python_bindings/python/factorama/__init__.py:_plot_bearing_lines", "python_bindings/python/factorama/__init__.py:_plot_between_factors"]}
{"id": "C97", "title": "Uncertainty regions are those of the covariances", "statement": "With covariances requested, every variable shown that has a covariance has a region around its position: the ellipse or ellipsoid of the points that are one standard deviation away, for the covariance that the optimizer estimates. There are no other regions.", "quantifier": "every graph, all values, all covariances; every eigenvalue routine that is correct", "why_tests_cant": "Continuum of covariances; degenerate and correlated cases, orientation of eigenvectors.", "anchors": ["python_bindings/python/factorama/__init__.py:_plot_covariance_ellipse_2d", "python_bindings/python/factorama/__init__.py:_plot_covariance_ellipsoid_3d", "python_bindings/python/factorama/__init__.py:PlotFactorGraph"]}
{"id": "C98", "title": "The axis limits of a drawing fit", "statement": "In a 3D drawing the axis limits enclose what is drawn, have the same scale along all axes, and are no wider than needed.", "quantifier": "every graph, all values, all options", "why_tests_cant": "Continuum of positions.", "anchors": ["python_bindings/python/factorama/__init__.py:PlotFactorGraph"]}
{"id": "C99", "title": "Drawing changes nothing", "statement": "Drawing a graph does not influence anything observed later: values, residuals, Jacobians, statistics and covariances are those without the drawing.", "quantifier": "every graph, optimizer state and options, every later program", "why_tests_cant": "All programs before and after the drawing; a drawing calls the optimizer.", "anchors": ["python_bindings/python/factorama/__init__.py:PlotFactorGraph"]}
{"id": "C100", "title": "Asking for a variable changes nothing", "statement": "In Python, get_variable, get_all_variables and Factor.variables only look: whether and when a program asks for variables, and lets go of what it got, has no influence on the outcome of any call, the values, the graph or the results of the optimizer.", "quantifier": "every Python program, every order in which references go away", "why_tests_cant": "All programs and all moments at which objects are collected; what a destroyed object's memory holds is up to the allocator.", "anchors": ["python_bindings/python/factorama/_factorama.cpp:FactorGraph", "src/factorama/factor_graph.hpp:FactorGraph::get_variable"]}
{"id": "C101", "title": "An array handed out keeps its numbers", "statement": "The array returned by value() or compute_full_residual_vector() keeps its numbers whatever is called later, so that values and residuals before and after an optimization can be compared.", "quantifier": "every program before and after the array is taken", "why_tests_cant": "All later programs; the array shows memory of the library that later calls write or replace.", "anchors": ["python_bindings/python/factorama/_factorama.cpp:FactorGraph", "src/factorama/factor_graph.cpp:FactorGraph::compute_full_residual_vector", "src/factorama/base_types.hpp:Variable::value"]}
{"id": "C102", "title": "Near an exact fit the number of correct digits doubles with every iteration", "statement": "If all residuals of a graph can be zero together, then Gauss-Newton with learning rate 1, started near such values, converges quadratically: an iteration takes variables that are off by at most d to variables that are off by at most a constant times d squared, and a run that reports k iterations leaves them off by at most d times q to the power 2^k - 1 with q < 1. The Jacobians must be right near the fit and determine all variables.", "quantifier": "every graph, every such fit, every start near enough, every number of iterations, exact arithmetic; ids identify the variables, no factor uses a variable twice, no Jacobian was computed before the last finalization (C08, C12)", "why_tests_cant": "A statement about rates for a continuum of starting points and all numbers of iterations; a wrong Jacobian term still converges, only slower.", "anchors": ["src/factorama/sparse_optimizer.cpp:SparseOptimizer::optimize", "src/factorama/sparse_optimizer.cpp:SparseOptimizer::single_step_gauss_newton"]}
{"id": "C103", "title": "The times in the summary add up to no more than the call took", "statement": "The times a verbose optimization shows for residuals, Jacobians, normal equations, solving and updating are times of disjoint parts of the work: what is counted for them during one call of optimize adds up to no more than the time between the beginning of the call and the reading.", "quantifier": "all graphs, factors, settings and methods, all histories before the call, all clock readings in non-decreasing order", "why_tests_cant": "Whether two stopwatches run at the same time depends on which branches the trials of Levenberg-Marquardt take; a test sees a few of them and cannot tell the double count from slow code", "anchors": ["src/factorama/sparse_optimizer.cpp:SparseOptimizer::optimize", "src/factorama/sparse_optimizer.cpp:SparseOptimizer::single_step_levenberg_marquardt", "src/factorama/stopwatch.hpp:Stopwatch"]}
{"id": "C104", "title": "Only the ratios of the standard deviations matter", "statement": "Multiplying the standard deviations of all measurements by one positive number does not change the estimates an optimization ends with; the covariances reported at the same values are multiplied by its square, the residual norm is divided by it and the cost by its square.", "quantifier": "all graphs, values, measurements, standard deviations and factors of proportion, exact arithmetic", "why_tests_cant": "Continuum of problems and scales; thresholds that are absolute rather than relative show only at scales a test does not use", "anchors": ["src/factorama/sparse_optimizer.cpp:SparseOptimizer::optimize", "src/factorama/sparse_optimizer.cpp:SparseOptimizer::single_step_gauss_newton", "src/factorama/sparse_optimizer.cpp:SparseOptimizer::estimate_covariance"]}
{"id": "C105", "title": "The choice of the world frame does not matter for the estimates", "statement": "Describing the same problem in another world frame - all positions shifted and turned, with measurements and priors expressed accordingly - gives the same estimates expressed in the other frame, after the same iterations, with the same costs and statistics, for both methods.", "quantifier": "all graphs of the library's factors and variables, all shifts in space, all rigid motions of the plane, all initial values and settings", "why_tests_cant": "Needs two runs compared for every graph, every motion and every number of iterations; a test compares a few runs up to rounding.", "anchors": ["src/factorama/sparse_optimizer.cpp:SparseOptimizer::optimize", "src/factorama/sparse_optimizer.cpp:SparseOptimizer::single_step_levenberg_marquardt", "src/factorama/plane_factor.cpp:PlaneFactor::compute_jacobians", "src/factorama/pose_2d_between_factor.cpp:Pose2DBetweenFactor::compute_residual"]}
{"id": "C106", "title": "Repeated measurements add up their information", "statement": "Measuring the same thing several times with standard deviations s1, s2, ... is the same as measuring it once with the standard deviation s for which 1/s^2 = 1/s1^2 + 1/s2^2 + ...; in particular n factors with s*sqrt(n) stand for one with s. Replacing one by the others, in any order, changes neither the outcome nor the status, statistics, final values or covariances.", "quantifier": "all graphs, factors, numbers and precisions of repetitions, both methods, all settings, exact arithmetic", "why_tests_cant": "Compares two runs for every graph and every way to split a measurement; a wrong weight of one factor class stays within the tolerance of a test with one such factor.", "anchors": ["src/factorama/sparse_optimizer.cpp:SparseOptimizer::optimize", "src/factorama/sparse_optimizer.cpp:SparseOptimizer::estimate_covariance", "src/factorama/factor_graph.cpp:FactorGraph::compute_sparse_jacobian"]}
{"id": "C107", "title": "More or better measurements never make the estimates less certain", "statement": "Adding measurements to a graph, or making measurements more precise, never increases the covariance that is reported for a variable at the same values: the variance of every combination of its components becomes smaller or stays as it is.", "quantifier": "all graphs, values, added factors and improved standard deviations, all variables and directions, exact arithmetic", "why_tests_cant": "A matrix inequality for a continuum of problems; a covariance with wrong rows, scale or sign can still look plausible for one graph.", "anchors": ["src/factorama/sparse_optimizer.cpp:SparseOptimizer::prepare_to_estimate_covariances", "src/factorama/sparse_optimizer.cpp:SparseOptimizer::estimate_covariance"]}
{"id": "C108", "title": "Holding a variable constant never makes the other estimates less certain", "statement": "Setting variables constant never increases the covariance that is reported for a variable that is still free, at the same values: the variance of every combination of its components becomes smaller or stays as it is. The derivatives with respect to the free variables are not affected by which others are constant.", "quantifier": "all graphs, all values, all sets of variables that are held, all free variables and directions, exact arithmetic", "why_tests_cant": "A matrix inequality between two problems with different columns, for every choice of constants; a misplaced column still gives plausible variances for one graph.", "anchors": ["src/factorama/sparse_optimizer.cpp:SparseOptimizer::estimate_covariance", "src/factorama/factor_graph.cpp:FactorGraph::finalize_structure", "src/factorama/base_types.hpp:Variable::set_constant"]}
{"id": "C109", "title": "Parts of a graph that have nothing to do with each other do not influence each other", "statement": "If the variables of a graph fall into two groups without a factor between free variables of both, optimizing the whole graph gives the variables of one group the same values, and later the same covariances, as optimizing that group alone.", "quantifier": "all graphs, all independent parts, all values, factors and numbers of iterations, exact arithmetic", "why_tests_cant": "Compares two runs for every graph and every second part; an index error in the placement of columns or rows shows only for particular combinations of sizes and orders.", "anchors": ["src/factorama/sparse_optimizer.cpp:SparseOptimizer::optimize", "src/factorama/sparse_optimizer.cpp:SparseOptimizer::single_step_gauss_newton", "src/factorama/sparse_optimizer.cpp:SparseOptimizer::estimate_covariance"]}
{"id": "C110", "title": "Success means that the gradient nearly vanishes", "statement": "If optimize() reports SUCCESS, the gradient of the cost at the final values is small: of the order of step_tolerance times the entries of the normal matrix.", "quantifier": "all graphs, settings, starting values and both methods", "why_tests_cant": "whether a run stops for the right reason depends on the whole sequence of costs; tests look at a few problems that converge", "anchors": ["src/factorama/sparse_optimizer.cpp:optimize", "src/factorama/sparse_optimizer.cpp:SparseOptimizer::single_step_gauss_newton", "src/factorama/sparse_optimizer.cpp:single_step_levenberg_marquardt"]}
{"id": "C111", "title": "Levenberg-Marquardt converges on linear problems", "statement": "On a problem whose residuals are affine and whose increments are additive, with learning rate 1, an iteration of Levenberg-Marquardt never leads away from any solution. If the normal matrix is well conditioned with eigenvalues of at least mu, every iteration multiplies the distance from the solution by at most lambda/(lambda+mu), with a damping lambda that falls by lambda_down_factor from iteration to iteration, so a run ends as near to the solution as the number of iterations it reports implies.", "quantifier": "all linear problems, starting values, solutions, damping settings and numbers of iterations; for Levenberg-Marquardt, variables that can be given their values back (C41)", "why_tests_cant": "a bound on the error for every linear problem and every number of iterations cannot be sampled", "anchors": ["src/factorama/sparse_optimizer.cpp:single_step_levenberg_marquardt", "src/factorama/sparse_optimizer.cpp:optimize"]}
{"id": "C112", "title": "A clone of a variable is an independent object", "statement": "clone() makes a new variable that equals the original at that moment, with the same identifier and constant flag. Afterwards calls on the clone change nothing else, and nothing else changes the clone: optimizations and all other calls have the results they would have without the clone. The graph that has the original refuses the clone because of its identifier.", "quantifier": "all programs that clone a variable at any point and afterwards call the graph, the optimizer, other variables and the clone in any order", "why_tests_cant": "independence must hold for every later sequence of calls", "anchors": ["src/factorama/base_types.hpp:clone", "src/factorama/pose_variable.cpp:clone", "src/factorama/pose_2d_variable.cpp:clone", "src/factorama/inverse_range_variable.cpp:clone", "src/factorama/factor_graph.cpp:add_variable"]}
{"id": "C113", "title": "Allowing more iterations never makes the result worse", "statement": "Raising max_num_iterations only lets a run go on: if the run did not end because of the limit, it is exactly the same; otherwise the longer run passes through the values at which the shorter one ended, and ends with a cost that is not larger.", "quantifier": "all graphs, settings, starting values and pairs of limits, both methods", "why_tests_cant": "relates two runs for every problem and every pair of limits", "anchors": ["src/factorama/sparse_optimizer.cpp:optimize", "src/factorama/sparse_optimizer.cpp:SparseOptimizer::single_step_gauss_newton", "src/factorama/sparse_optimizer.cpp:single_step_levenberg_marquardt"]}
{"id": "C114", "title": "Graphs without common variables do not influence each other", "statement": "A program may use several graphs and several optimizers over its variables. Graphs, optimizers and variables that have nothing to do with the others behave as if the others did not exist: the same outcomes of calls, values, statistics and covariances, however the calls are interleaved and even if identifiers coincide.", "quantifier": "all programs with any number of graphs, optimizers and variables, all interleavings of the calls", "why_tests_cant": "ranges over all programs and all ways to interleave two of them", "anchors": ["src/factorama/sparse_optimizer.hpp:SparseOptimizer", "src/factorama/sparse_optimizer.cpp:setup", "src/factorama/factor_graph.hpp:FactorGraph"]}
{"id": "C115", "title": "An optimizer keeps its results while another one works on the same graph", "statement": "After optimize() has returned, the statistics and covariances of an optimizer stay what they are while other optimizers work on the same graph and variables get other values, until the optimizer is used again or the structure of the graph changes.", "quantifier": "all programs with several optimizers on the same graph", "why_tests_cant": "ranges over all later calls on other optimizers", "anchors": ["src/factorama/sparse_optimizer.cpp:prepare_to_estimate_covariances", "src/factorama/sparse_optimizer.cpp:estimate_covariance", "src/factorama/factor_graph.hpp:sparse_jacobian"]}
{"id": "C116", "title": "A variable is at most as uncertain as dead reckoning", "statement": "If a chain of relative measurements leads from a direct measurement, or from a constant variable, to a variable, the variance reported for that variable is at most the sum of the variances along the chain, whatever else the graph contains. If nothing else is measured it is this sum.", "quantifier": "all graphs, all chains of direct and relative measurements in them, all components and combinations of them; for Levenberg-Marquardt, variables that can be given their values back (C41)", "why_tests_cant": "ranges over all graphs around the chain and all lengths of the chain", "anchors": ["src/factorama/sparse_optimizer.cpp:estimate_covariance", "src/factorama/generic_between_factor.cpp:compute_jacobians", "src/factorama/generic_prior_factor.hpp:compute_jacobians", "src/factorama/pose_between_factors.cpp:PosePositionBetweenFactor", "src/factorama/pose_2d_between_factor.cpp:Pose2DBetweenFactor"]}
{"id": "C117", "title": "Direct measurements of a variable are averaged with inverse variances as weights", "statement": "A variable that only priors mention, in any number, ends a valid Gauss-Newton run with learning rate 1 at the mean of the values of the priors weighted with their inverse variances, wherever the run started and whatever the rest of the graph is. Its covariance is one over the sum of the inverse variances in each component, without correlations.", "quantifier": "all graphs, all numbers of priors, all their values and standard deviations; for Levenberg-Marquardt, variables that can be given their values back (C41)", "why_tests_cant": "ranges over all values, standard deviations and numbers of priors and over the rest of the graph", "anchors": ["src/factorama/generic_prior_factor.hpp:compute_residual", "src/factorama/generic_prior_factor.hpp:compute_jacobians", "src/factorama/sparse_optimizer.cpp:SparseOptimizer::single_step_gauss_newton", "src/factorama/sparse_optimizer.cpp:estimate_covariance"]}
{"id": "C118", "title": "Measurements that agree with each other are met exactly", "statement": "If some values of the free variables of a linear problem meet all measurements exactly, a valid Gauss-Newton run with learning rate 1 ends at these values, wherever it started. So it does if there are just as many residuals as free values: then all residuals are zero. In general the estimate differs from any values by a fixed linear function of the residuals at those values, which does not depend on the start.", "quantifier": "all linear problems, all start values, all measured values", "why_tests_cant": "ranges over all linear problems and all values", "anchors": ["src/factorama/sparse_optimizer.cpp:SparseOptimizer::single_step_gauss_newton", "src/factorama/sparse_optimizer.cpp:optimize"]}
{"id": "C119", "title": "The reported covariance is the covariance of the error of the estimate", "statement": "If the measured values of a linear problem are the true ones plus random errors of mean zero, the mean of the Gauss-Newton estimate is the true value. If the errors have the standard deviations stated in the factors and are not correlated, the matrix reported by estimate_covariance is the covariance matrix of the error of the estimate, whatever values were measured in the run that reports it.", "quantifier": "all linear problems, all distributions of the errors with these means and variances, all start values", "why_tests_cant": "a statement about the distribution of results over all measurements, for all problems", "anchors": ["src/factorama/sparse_optimizer.cpp:estimate_covariance", "src/factorama/sparse_optimizer.cpp:prepare_to_estimate_covariances", "src/factorama/sparse_optimizer.cpp:SparseOptimizer::single_step_gauss_newton"]}
{"id": "C120", "title": "The expected chi\u00b2 is the redundancy", "statement": "If the measured values of a linear problem are the true ones plus uncorrelated errors with the standard deviations stated in the factors, the mean of the chi\u00b2 reported after a Gauss-Newton run is the number of residuals less the number of free values.", "quantifier": "all linear problems, all distributions of the errors with these means and variances, all start values", "why_tests_cant": "a statement about the distribution of results over all measurements, for all problems", "anchors": ["src/factorama/sparse_optimizer.cpp:optimize", "src/factorama/sparse_optimizer.hpp:OptimizerStats"]}
{"id": "C121", "title": "Well-conditioned linear problems are always solved", "statement": "If the residuals are affine functions of the values and can be evaluated for all values, and the Jacobian is well conditioned, optimize() with Gauss-Newton and learning rate 1 always returns, is valid and reports SUCCESS after at most two iterations, and the free variables then have the only values with the smallest sum of squares. With any learning rate from 0 to 2 it returns, is valid and reports SUCCESS. All graphs made of generic variables, priors and differences of matching sizes are such problems if they are well conditioned.", "quantifier": "all well-conditioned linear problems, all start values, measured values, tolerances and iteration limits", "why_tests_cant": "a guarantee of success for all problems of a class", "anchors": ["src/factorama/sparse_optimizer.cpp:optimize", "src/factorama/sparse_optimizer.cpp:SparseOptimizer::single_step_gauss_newton", "src/factorama/generic_prior_factor.hpp:GenericPriorFactor", "src/factorama/generic_between_factor.cpp:compute_residual"]}
{"id": "C122", "title": "A learning rate shrinks the distance from the solution by the same factor in every iteration", "statement": "In a linear problem every Gauss-Newton iteration with learning rate \u03b7 multiplies the distance of every component of every free variable from the solution by 1 - \u03b7. After a run with a learning rate from 0 to 2 on a well-conditioned problem that reports n iterations the distance is (1 - \u03b7)\u207f times what it was at the start.", "quantifier": "all linear problems, all learning rates, all start values, all numbers of iterations", "why_tests_cant": "the exact course of all runs", "anchors": ["src/factorama/sparse_optimizer.cpp:optimize", "src/factorama/sparse_optimizer.cpp:SparseOptimizer::single_step_gauss_newton"]}
{"id": "C123", "title": "When a covariance is reported, and when it is withheld", "statement": "After a completed run whose last normal matrix is invertible, the first prepare_to_estimate_covariances() succeeds, and a covariance is then reported for a free variable of the graph if and only if none of its variances exceeds 1e12; otherwise none is reported. So if the linearised residual always changes by at least 1e-6 times the change of the variables, every free variable gets a covariance after every valid run of either method. On well-conditioned linear problems Gauss-Newton, the preparation and the report all succeed, the covariance is the variable's block of the inverse normal matrix at the start values, and it does not depend on the measured values or on the course of the run.", "quantifier": "all prepared graphs and optimizers in exact arithmetic, both methods; for linear problems all measured and start values and all learning rates between 0 and 2; for Levenberg-Marquardt, variables that can be given their values back (C41)", "why_tests_cant": "An application that relies on covariances needs to know that asking for one will not fail; tests show it for a few graphs, and none shows the boundary between reported and withheld.", "anchors": ["src/factorama/sparse_optimizer.cpp:SparseOptimizer::prepare_to_estimate_covariances", "src/factorama/sparse_optimizer.cpp:SparseOptimizer::estimate_covariance"]}
{"id": "C124", "title": "Covariances describe the same uncertainty in every world frame", "statement": "When the same problem is described in a shifted or turned world frame and both optimizations end without an error, the covariances reported afterwards describe the same uncertainty: those of positions are turned with the frame, T P T^t, and those of headings, local rotations and quantities not tied to the world are the same.", "quantifier": "all graphs made of the library's variables and factors that describe the same problem in two frames, any shift and any rotation, in the plane and in space, exact arithmetic", "why_tests_cant": "Error ellipses drawn on a map must not depend on how the map frame was chosen; a test compares two frames on one graph.", "anchors": ["src/factorama/sparse_optimizer.cpp:SparseOptimizer::prepare_to_estimate_covariances", "src/factorama/sparse_optimizer.cpp:SparseOptimizer::estimate_covariance", "src/factorama/sparse_optimizer.cpp:SparseOptimizer::optimize"]}
{"id": "C125", "title": "The matrix of a rotation variable is the rotation given by its value", "statement": "After every history of construction, set_value_from_vector, apply_increment and assignments through dcm_AB(), rotation() is a rotation matrix and value() is a rotation vector of it.", "quantifier": "every rotation variable, every history of calls", "why_tests_cant": "Histories have no bound and the vectors form a continuum; thresholds near the identity.", "anchors": ["src/factorama/rotation_variable.hpp:RotationVariable::apply_increment", "src/factorama/rotation_variable.hpp:RotationVariable::set_value_from_vector", "src/factorama/rotation_variable.hpp:RotationVariable::dcm_AB"]}
{"id": "C126", "title": "No other way to add up the measurements is more precise", "statement": "In a linear problem whose measurement errors, in units of the standard deviations behind the weights, are uncorrelated with mean 0 and variance 1, every weighted sum of the measurements that recovers a combination of the components of a free variable from exact measurements has a mean square error of at least that of the estimate left by a valid optimize(), and the latter is what the covariance from estimate_covariance predicts for the combination.", "quantifier": "all linear problems, all combinations, all weights, all distributions of the errors with these moments", "why_tests_cant": "Quantifies over all rival estimators and all probability spaces.", "anchors": ["src/factorama/sparse_optimizer.cpp:SparseOptimizer::optimize", "src/factorama/sparse_optimizer.cpp:SparseOptimizer::estimate_covariance"]}
{"id": "C127", "title": "A measured value moves an estimate by at most its standard deviation per standard deviation", "statement": "If the measured values of a linear problem change by d, in units of the standard deviations behind the weights, every combination of the components of a variable moves, after optimize(), by at most the standard deviation that estimate_covariance reports for it, times the length of d. In particular a single value that is wrong by k standard deviations moves an estimate by at most k standard deviations of the estimate.", "quantifier": "all linear problems, all changes of the measured values, all combinations, all start values", "why_tests_cant": "Quantifies over pairs of runs and over all changes of the data.", "anchors": ["src/factorama/sparse_optimizer.cpp:SparseOptimizer::optimize", "src/factorama/sparse_optimizer.cpp:SparseOptimizer::estimate_covariance"]}
{"id": "C128", "title": "The residuals that remain have mean zero, are at most one on average, and tell nothing about the errors of the estimates", "statement": "In a linear problem whose measurement errors, in units of the standard deviations behind the weights, are uncorrelated with mean 0 and variance 1, every residual after a valid optimize() has mean 0 and a mean square of at most 1, and is uncorrelated with the error of every component of every estimate.", "quantifier": "all linear problems, all residuals, all distributions of the errors with these moments", "why_tests_cant": "A statement about all measured values at once; quantifies over probability spaces.", "anchors": ["src/factorama/sparse_optimizer.cpp:SparseOptimizer::optimize", "src/factorama/factor_graph.cpp:FactorGraph::compute_full_residual_vector"]}
{"id": "C129", "title": "Levenberg-Marquardt succeeds on every well-conditioned linear problem, unless it starts at the solution", "statement": "If the residuals are affine functions of the values and can be evaluated for all values, and the Jacobian is well conditioned, optimize() with Levenberg-Marquardt, learning rate 1 and positive dampings always returns. If the start values do not have the smallest sum of squares, it is valid and reports SUCCESS, and the distance of the returned values from the solution is bounded by that of the start values times a product of damping ratios. If the start values are the solution and an iteration is allowed, the run is reported as invalid and not as SUCCESS, and the variables keep their values.", "quantifier": "all well-conditioned linear problems, all start values, measured values, dampings, tolerances and iteration limits", "why_tests_cant": "a guarantee of success for all problems of a class", "anchors": ["src/factorama/sparse_optimizer.cpp:optimize", "src/factorama/sparse_optimizer.cpp:single_step_levenberg_marquardt"]}
{"id": "C130", "title": "A factor that its constructor accepts can be evaluated", "statement": "The constructor of every factor class accepts its arguments exactly if no variable is a null pointer, the standard deviations are positive, the sizes of variables and measured values fit, a measured range is not negative, and the normal of a plane prior is not zero. Otherwise a debug build stops at the assertion. A factor that was accepted has the given id and variables, and whatever values its variables are given later, its residual and its Jacobian blocks can be computed without undefined behaviour and the residual has the announced size.", "quantifier": "all factor classes, all constructor arguments including null pointers, all later values of the variables", "why_tests_cant": "all combinations of arguments for eighteen classes, and a failing assertion ends the test process", "anchors": ["src/factorama/linear_velocity_factor.cpp:LinearVelocityFactor", "src/factorama/plane_factor.cpp:PlaneFactor", "src/factorama/generic_between_factor.cpp:GenericBetweenFactor", "src/factorama/coordinate_transform_factor.hpp:CoordinateTransformFactor", "src/factorama/range_bearing_factor_2d.cpp:RangeBearingFactor2D"]}
{"id": "C131", "title": "The reported cost is accurate in floating-point arithmetic", "statement": "When optimize() completes without a step having thrown, chi2 equals the sum of the squares of the residuals of the final values up to the rounding of floating-point arithmetic: at most one relative rounding per residual, plus the underflow of the products, in whatever order the squares are added. A Levenberg-Marquardt run does not increase the exact sum of squares by more than the rounding errors of two such sums, however many iterations it takes.", "quantifier": "all graphs, start values, settings and linear solvers, all arithmetics that follow the standard model of rounding, all orders of summation", "why_tests_cant": "all inputs, and the order of summation depends on the processor the library is compiled for", "anchors": ["src/factorama/sparse_optimizer.cpp:optimize", "src/factorama/sparse_optimizer.cpp:single_step_levenberg_marquardt"]}
{"id": "C132", "title": "Identifiers are only names", "statement": "Choosing other ids for variables and factors, keeping different ids different, changes nothing else: every call has the same outcome, and estimates, statistics, residuals, Jacobians, placements and covariances are the same to the last bit.", "quantifier": "all programs of calls on a graph, its variables and an optimizer, all ids, all arithmetics, all linear solvers, all traversal orders of hash tables", "why_tests_cant": "all choices of ids; hash tables keyed by ids could let them influence the order of additions", "anchors": ["src/factorama/factor_graph.cpp:add_variable", "src/factorama/factor_graph.cpp:FactorGraph::finalize_structure", "src/factorama/factor_graph.hpp:factor_placement", "src/factorama/sparse_optimizer.cpp:estimate_covariance"]}
{"id": "C133", "title": "Optimizing moves a directly measured variable straight towards the weighted mean", "statement": "A variable that only priors mention, in any number, moves during a valid run on the straight line from its start value to the mean of the values of the priors weighted with their inverse variances, whatever the rest of the graph is. Levenberg-Marquardt with positive dampings and a learning rate of at most 1 always comes closer to the mean and neither reaches nor passes it; Gauss-Newton with learning rate a multiplies the distance by 1 - a in every reported iteration.", "quantifier": "all graphs, all numbers of priors, all their values and standard deviations, all start values, all dampings and learning rates", "why_tests_cant": "ranges over all values, standard deviations, dampings and numbers of priors and over the rest of the graph; an overshoot in a component needs a particular combination of them", "anchors": ["src/factorama/generic_prior_factor.hpp:compute_residual", "src/factorama/sparse_optimizer.cpp:single_step_levenberg_marquardt", "src/factorama/sparse_optimizer.cpp:SparseOptimizer::single_step_gauss_newton", "examples/01_simple_localization.cpp:main"]}
{"id": "C134", "title": "A landmark is determined by directions exactly if it is seen along two different lines", "statement": "If a graph consists of direction observations (bearing observations of landmarks in space, bearings in the plane) from poses held constant, the least-squares problem at the current values is undetermined exactly if some free landmark is seen along one line only, and otherwise, without rounding, the matrix of a Gauss-Newton step can be factorised. Whatever else is in the graph, a free landmark about which nothing is known but directions along one line leaves the problem undetermined, although a single observation in space brings as many residuals as the landmark has values and the graph is accepted: a Gauss-Newton run then moves nothing, reports FAILED and yields no covariance. If two observations along different lines fit exactly, no other position of the landmark fits both.", "quantifier": "all graphs of direction observations in space and in the plane, all constant poses and landmark positions at which the Jacobian exists, all observed directions and standard deviations; for the first step of the optimizer, all settings with Gauss-Newton; real arithmetic", "why_tests_cant": "tests triangulate a few landmarks from a few poses; which configurations fail is a statement about all of them, and the count of residuals that the library checks does not reveal it", "anchors": ["src/factorama/bearing_observation_factor.cpp:compute_jacobians", "src/factorama/bearing_observation_factor_2d.cpp:compute_jacobians", "src/factorama/sparse_optimizer.cpp:SparseOptimizer::single_step_gauss_newton", "src/factorama/factor_graph.cpp:FactorGraph::finalize_structure", "examples/02_landmark_triangulation.cpp:main"]}
{"id": "C135", "title": "Direct and relative measurements determine exactly what is connected to something known", "statement": "In a graph of direct measurements of variables and of measurements of the difference of two variables, the least-squares problem is determined exactly if every free variable is constant, measured directly, or connected by a chain of measured differences, in either direction, to one that is. In that case, and only then, the matrix of a Gauss-Newton step can be factorised without rounding, whatever the values, the measurements and the standard deviations. Otherwise a Gauss-Newton run moves nothing, reports FAILED and yields no covariance, even if the number of residuals suffices and the graph was accepted.", "quantifier": "all networks of generic prior and generic between factors with constant measurement variables, of any size and shape including loops and repeated measurements; all values, measurements and nonzero weights; real arithmetic", "why_tests_cant": "the statement is about reachability in graphs of any size; tests use a few chains, and a disconnected part is accepted whenever other measurements are redundant enough", "anchors": ["src/factorama/generic_prior_factor.hpp:compute_jacobians", "src/factorama/generic_between_factor.cpp:compute_jacobians", "src/factorama/sparse_optimizer.cpp:SparseOptimizer::single_step_gauss_newton", "src/factorama/factor_graph.cpp:FactorGraph::finalize_structure"]}
{"id": "C136", "title": "A pose in the plane and the landmarks it sees", "statement": "If a graph consists of bearing and range-bearing observations of constant landmarks from planar poses, it is undetermined at its current values exactly if for some free pose there is a circle or a straight line through that pose on which all landmarks lie that it sees, those observed with their range being opposite to the pose on the circle. With range and bearing of every landmark this means that the pose sees no two landmarks at different places. In the undetermined case a Gauss-Newton run moves nothing and reports FAILED, and no covariance is reported; otherwise the matrix of the step can be factorised.", "quantifier": "every number of poses and landmarks, every arrangement of them at which the factors can be evaluated, every nonzero standard deviation, every other factor in the graph that does not mention the pose", "why_tests_cant": "Tests use a few arrangements in which the pose is determined; the dangerous circle is a set of measure zero.", "anchors": ["src/factorama/bearing_observation_factor_2d.cpp:compute_jacobians", "src/factorama/range_bearing_factor_2d.cpp:compute_jacobians", "src/factorama/sparse_optimizer.cpp:SparseOptimizer::single_step_gauss_newton"]}
{"id": "C137", "title": "Maps of the plane: what can be located step by step is determined", "statement": "A graph of planar poses with priors and relative poses is undetermined exactly if some free pose is not connected, by relative poses, to one that is constant or has a prior; then a Gauss-Newton run moves nothing and reports FAILED, and no covariance is reported, and otherwise the matrix of the step can be factorised. With landmarks, a graph is determined if every free variable can be located step by step: a landmark by range and bearing from a located pose or by bearings from two located poses along different lines, a pose by located landmarks that are not all on one circle or line through it.", "quantifier": "every number of poses, landmarks and observations, every value of the variables at which the factors can be evaluated, both frames of the relative poses, every nonzero standard deviation, every other factor in the graph (for the sufficiency)", "why_tests_cant": "Connectivity of arbitrary graphs cannot be enumerated; tests build small chains with a prior.", "anchors": ["src/factorama/pose_2d_prior_factor.cpp:compute_jacobians", "src/factorama/pose_2d_between_factor.cpp:compute_jacobians", "src/factorama/bearing_observation_factor_2d.cpp:compute_jacobians", "src/factorama/range_bearing_factor_2d.cpp:compute_jacobians", "src/factorama/sparse_optimizer.cpp:SparseOptimizer::single_step_gauss_newton"]}
{"id": "C138", "title": "Maps in space: what can be oriented and positioned step by step is determined", "statement": "A graph of poses in space with priors on position and orientation and measured ways and rotations between poses, in which ways are given in the frame of the world or of a pose whose orientation is reached, is undetermined exactly if the orientation or the position of some free pose is not reached, by measured rotations or ways, from a constant pose or one with a prior; then a Gauss-Newton run moves nothing and reports FAILED, and no covariance is reported, and otherwise the matrix of the step can be factorised. Whatever else is in the graph, it is determined if every free pose can be oriented and positioned and every free landmark positioned step by step, a landmark by bearings from two located poses along different lines.", "quantifier": "every number of poses, landmarks and factors, every value of the variables at which the factors can be evaluated (poses with rotation matrices), both frames, every nonzero standard deviation, every other factor in the graph (for the sufficiency)", "why_tests_cant": "Connectivity of arbitrary graphs cannot be enumerated; tests build small chains with priors.", "anchors": ["src/factorama/pose_prior_factors.cpp:compute_jacobians", "src/factorama/pose_between_factors.cpp:compute_jacobians", "src/factorama/bearing_observation_factor.cpp:compute_jacobians", "src/factorama/sparse_optimizer.cpp:SparseOptimizer::single_step_gauss_newton"]}
{"id": "C139", "title": "The same measurement, written differently", "statement": "A measured angle may be given with any number of whole turns and a measured direction or normal with any positive length: the constructor makes the same factor, in every build, and refuses it alike. The same holds of the angle of a planar pose when it is made, set or moved, of the angle of a measured relative planar pose, of the normal of a plane and the bearing of an inverse range, and, for rotation vectors about the same axis that are not shorter than 1e-8, of whole turns of a pose in space. Nothing less than the direction matters: bearings that do not point in the same direction give different residuals.", "quantifier": "every real angle, every number of whole turns, every direction and positive length, every value of the variables, both frames, every build", "why_tests_cant": "There are infinitely many ways to write an angle or a direction; tests pick a few near the wrap.", "anchors": ["src/factorama/bearing_observation_factor_2d.cpp:compute_residual", "src/factorama/range_bearing_factor_2d.cpp:compute_residual", "src/factorama/pose_2d_prior_factor.cpp:compute_residual", "src/factorama/pose_2d_between_factor.cpp:compute_residual", "src/factorama/bearing_observation_factor.hpp:BearingObservationFactor", "src/factorama/plane_prior_factor.cpp:PlanePriorFactor", "src/factorama/pose_2d_variable.cpp:set_theta"]}
{"id": "C140", "title": "Nothing undefined happens to a program that uses the library as intended", "statement": "Suppose the variables come from the library's constructors or have been changed only by calls with vectors of their own size, the factors come from constructors in a debug build, given pointers to variables of the declared classes, the graph has been finalized with something free, no factor uses a variable twice, identifiers identify, no plane is free, and no factor is a projected bearing. Then no sequence of calls that evaluate, write values, add increments, copy the graph, set up the optimizer again, optimize or prepare covariances runs into undefined behaviour or a failed assertion, as long as vectors have the sizes of what they are written to; and every optimize() in it returns instead of throwing. A free plane has to be excluded: an increment that is the negative of its normal fails an assertion.", "quantifier": "all variables and factors of the library's classes except free planes and projected bearings, all graphs of them, all sequences of such calls, all settings, every arithmetic and solver, every order in which the factors are visited", "why_tests_cant": "A test runs a few sequences on a few graphs; that none of all sequences on all graphs ends in an out-of-range access, a division by zero or an unexpected exception is a statement about every state they can reach.", "anchors": ["src/factorama/sparse_optimizer.cpp:SparseOptimizer::single_step_gauss_newton", "src/factorama/factor_graph.cpp:FactorGraph::finalize_structure", "src/factorama/plane_variable.hpp:apply_increment"]}
{"id": "C141", "title": "With tolerances of zero the number of iterations is the user's choice", "statement": "A run of optimize() whose step and residual tolerances are zero or negative and whose result is valid has made exactly the number of iterations it was allowed, unless it is a Gauss-Newton run whose last iteration raised the norm of the residual. On a well-conditioned linear problem the exception does not occur for learning rates from 0 to 2, nor with Levenberg-Marquardt from start values that are not a solution already, so there a run allowed n iterations makes exactly n, is valid and reports SUCCESS; and with Gauss-Newton and learning rate eta it leaves every component of every free variable at (1 - eta)^n times its initial distance from the solution.", "quantifier": "all finalized graphs, variables and factors, all settings with tolerances of at most zero, both methods, all start values and numbers of iterations, in exact arithmetic; for Levenberg-Marquardt, variables that can be given their values back (C41)", "why_tests_cant": "Tests pick a few budgets on a few problems; that no stopping rule can end a run early once the tolerances are switched off concerns every state of the loop in every run.", "anchors": ["src/factorama/sparse_optimizer.cpp:SparseOptimizer::single_step_gauss_newton", "src/factorama/sparse_optimizer.cpp:optimize"]}
{"id": "C142", "title": "An optimization can be interrupted and resumed", "statement": "Let optimize() be run with a limit of n iterations, the optimizer be set up again on the same graph with the same settings and a limit of m iterations, and run. If a single run from the initial values with a limit of n + m iterations needs more than n of them, and both results are valid, then the two runs end with the same values in all variables, the same cost, residual norm and length of the last step, and the two shorter runs together count as many iterations as the long one.", "quantifier": "all finalized graphs, variables and factors, all settings, all linear solvers and arithmetics, all start values and all splits of the iteration limit", "why_tests_cant": "That nothing of the first run is remembered that matters and nothing is forgotten that matters depends on every buffer, flag and statistic that a run leaves behind, for every point of interruption.", "anchors": ["src/factorama/sparse_optimizer.cpp:SparseOptimizer::single_step_gauss_newton", "src/factorama/sparse_optimizer.cpp:optimize", "src/factorama/sparse_optimizer.cpp:setup"]}
{"id": "C143", "title": "Writing into the public statistics does no harm", "statement": "initial_stats_ and current_stats_ are public members of the optimizer and can be assigned, in C++ and in Python. Whatever a program writes into them and whenever, every call of the graph, the variables and the optimizer has the same outcome and every covariance estimate is the same as without the writes, and the variables, the graph and the optimizer's settings and caches are the same; after a run of optimize() that returns, the statistics are the same too.", "quantifier": "all programs of calls, covariance queries and writes, all contents written, all arithmetics, linear solvers, variables and factors", "why_tests_cant": "The loop decides by these very fields; that each of them is set before it is read, on every path of every program, is not something examples can show.", "anchors": ["src/factorama/sparse_optimizer.cpp:optimize", "src/factorama/sparse_optimizer.hpp:SparseOptimizer", "python_bindings/python/factorama/_factorama.cpp:OptimizerStats"]}
{"id": "C144", "title": "Python shows types, methods and statuses under their own names", "statement": "In Python, every value of the enumerations of variable types, factor types, methods and statuses is shown under the name it has in C++, the attribute of that name is that value, and different values have different names; the name of a variable is the name of its type followed by its id.", "quantifier": "all variables and factors, all values of the enumerations", "why_tests_cant": "Plotting and user code branch on these values; a missing or swapped registration shows only with the one type it concerns.", "anchors": ["python_bindings/python/factorama/_factorama.cpp:VariableType", "python_bindings/python/factorama/_factorama.cpp:FactorType", "python_bindings/python/factorama/_factorama.cpp:OptimizerStatus", "src/factorama/base_types.hpp:VariableTypeEnum"]}
{"id": "C145", "title": "Constructors called from Python get their arguments and defaults as in C++", "statement": "A constructor of a variable or factor called from Python accepts a call exactly if every parameter without a default in the C++ header is given, none is given twice and no other name is used. It then gets for each parameter what the caller gave, by position or by keyword in any order, and for those left out the default value that the header declares. With positional arguments it gets what the same C++ call gives it. No call fits two constructors of a class.", "quantifier": "all constructors of variables and factors, all lists of positional arguments, all sets of keyword arguments in every order", "why_tests_cant": "Defaults and names are written twice, in a header and in the bindings. Tests call each constructor with a few arguments; there are many ways to mix positions, keywords and omitted parameters, and a wrong default or a swapped pair of names still gives a working program.", "anchors": ["python_bindings/python/factorama/_factorama.cpp:PYBIND11_MODULE", "src/factorama/plane_factor.hpp:PlaneFactor", "src/factorama/linear_velocity_factor.hpp:LinearVelocityFactor", "src/factorama/bearing_projection_factor_2d.hpp:BearingProjectionFactor2D"]}
{"id": "C146", "title": "Settings changed in place take effect like settings given to setup()", "statement": "In Python, optimizer.settings() is the optimizer's own settings object. Whatever a program assigns to its fields between calls, all later calls have the outcomes, and leave the values of the variables, the graph, the statistics and the covariances, that they have if the program sets the optimizer up again with the same graph and the changed settings.", "quantifier": "all programs of calls on a graph, its variables and an optimizer, with any number of changes of settings at any places, all contents of the settings", "why_tests_cant": "Whether a run remembers something that only setup() resets depends on all earlier calls and on every flag and buffer of the optimizer.", "anchors": ["python_bindings/python/factorama/_factorama.cpp:OptimizerSettings", "src/factorama/sparse_optimizer.hpp:settings", "src/factorama/sparse_optimizer.cpp:setup", "src/factorama/sparse_optimizer.cpp:optimize"]}
{"id": "C147", "title": "Changed bounds of an inverse range are respected", "statement": "The bounds of an InverseRangeVariable are public and programs are invited to change them. Whatever changes a program makes, the inverse range is within the bounds the variable has now, and the point lies on the ray at a distance between the inverses of the bounds; giving the variable its own value back changes nothing.", "quantifier": "all histories of sets, increments, clips and changes of the bounds with all real arguments, including calls that throw and bounds that contradict each other", "why_tests_cant": "The bounds can be changed at any time to any values and the value depends on all earlier calls.", "anchors": ["src/factorama/inverse_range_variable.hpp:minimum_inverse_range_", "src/factorama/inverse_range_variable.cpp:clip_inverse_range", "src/factorama/inverse_range_variable.cpp:set_value_from_vector", "src/factorama/inverse_range_variable.cpp:apply_increment", "python_bindings/python/factorama/_factorama.cpp:InverseRangeVariable"]}
