{"id": "C01", "title": "Step-count termination is exact", "statement": "A run whose time integrator is given termination_step_count N (and starts at step count c0 <= N) executes exactly N - c0 time steps and then stops; if c0 >= N it executes none. The step counter after k steps is c0+k.", "quantifier": "all step limits, initial counters (including restarts) and step-size sequences", "why_tests_cant": "A test runs one deck for a few steps; the claim is about every deck, every number of steps and every step-size history.", "anchors": ["src/TimeIntegrator.C: simulation_proceeds, integrate_realm"]}
{"id": "C02", "title": "Time-based termination stops at the first step at or past the end time", "statement": "With termination_time T and positive step sizes, every executed step starts strictly before T, the run stops as soon as current time >= T, and with constant dt the final time lies in [T, T+dt) when the start time is below T; a run with step sizes bounded below terminates.", "quantifier": "all end times, start times and positive step-size sequences", "why_tests_cant": "A test runs one deck for a few steps; the claim is about every deck, every number of steps and every step-size history.", "anchors": ["src/TimeIntegrator.C: simulation_proceeds, integrate_realm"]}
{"id": "C03", "title": "Current time is start time plus the sum of the steps taken", "statement": "After any number of steps, the reported current time is the start time plus the sum of all dt used, and with fixed dt it is start + n*dt.", "quantifier": "all step-size histories and lengths", "why_tests_cant": "A test runs one deck for a few steps; the claim is about every deck, every number of steps and every step-size history.", "anchors": ["src/TimeIntegrator.C: integrate_realm"]}
{"id": "C04", "title": "BDF2 weights are a consistent second-order time derivative for any step-size history", "statement": "At every step after the first of a second_order_accuracy run the three weights (gamma1,gamma2,gamma3) sum to zero and (gamma1*q(np1)+gamma2*q(n)+gamma3*q(nm1))/dt is exactly q'(t_np1) for every quadratic q, whatever the two positive step sizes are; the first step uses backward Euler weights (1,-1,0), exact for linear q; first-order runs use (1,-1,0) at all steps.", "quantifier": "all positive pairs of consecutive step sizes, all quadratics, all step numbers", "why_tests_cant": "A unit test samples a few inputs; the claim must hold at every input of an infinite domain, including the boundary cases.", "anchors": ["src/TimeIntegrator.C: compute_gamma, get_gamma1, get_gamma2, get_gamma3"]}
{"id": "C05", "title": "Adaptive time step never changes by more than the user factor", "statement": "With an adaptive time step, change factor c >= 1 and positive Courant numbers, the proposed step lies within [dt/c, c*dt], moves toward the target Courant number, and equals dt*target/max when that lies within the bounds; over n steps the step stays within [dt0/c^n, c^n*dt0].", "quantifier": "all Courant histories, targets, change factors and run lengths", "why_tests_cant": "A test runs one deck for a few steps; the claim is about every deck, every number of steps and every step-size history.", "anchors": ["src/Realm.C: compute_adaptive_time_step", "src/TimeIntegrator.C: integrate_realm"]}
{"id": "C06", "title": "Results output schedule", "statement": "A results file step is written at step n iff output is active, frequency is nonzero, and n >= output_start with (n - output_start) divisible by output_frequency, or n is the first step at which the forced wall-clock limit was exceeded; the forced write happens at most once per run.", "quantifier": "all step numbers, frequencies, starts and wall-clock sequences", "why_tests_cant": "A test runs one deck for a few steps; the claim is about every deck, every number of steps and every step-size history.", "anchors": ["src/Realm.C: provide_output", "src/OutputInfo.C"]}
{"id": "C07", "title": "Restart output schedule", "statement": "A restart record is written at step n iff restart is active, frequency nonzero, and n >= restart_start with (n - restart_start) divisible by restart_frequency, or on the first wall-clock excess; the record holds the current step size as the previous step size, the step count and the averaging time.", "quantifier": "all step numbers, frequencies, starts and wall-clock sequences", "why_tests_cant": "A test runs one deck for a few steps; the claim is about every deck, every number of steps and every step-size history.", "anchors": ["src/Realm.C: provide_restart_output, populate_restart"]}
{"id": "C08", "title": "Restart reproduces the uninterrupted run's time state", "statement": "Stopping a fixed-step run after any step at which a restart record was written and restarting from it gives the same current time, step counter and BDF weights at all later steps as the uninterrupted run.", "quantifier": "all step sizes, split points and numbers of later steps", "why_tests_cant": "A test runs one deck for a few steps; the claim is about every deck, every number of steps and every step-size history.", "anchors": ["src/TimeIntegrator.C: integrate_realm", "src/Realm.C: populate_restart, provide_restart_output"]}
{"id": "C09", "title": "Fields written to output are fresh from the IO transfers", "statement": "On every step at which results are output, the IO transfers into the output realm have been executed on that step.", "quantifier": "all output frequencies and starts", "why_tests_cant": "A test runs one deck for a few steps; the claim is about every deck, every number of steps and every step-size history.", "anchors": ["src/Realm.C: process_io_transfer, provide_output"]}
{"id": "C10", "title": "Old states are the converged values of the previous steps", "statement": "After n >= 2 steps of a second-order run, StateN holds the field accepted at step n-1 and StateNM1 the one accepted at step n-2, for any sequence of accepted values and any number of nonlinear iterations in a step.", "quantifier": "all value histories, number of steps and nonlinear iterations", "why_tests_cant": "A test runs one deck for a few steps; the claim is about every deck, every number of steps and every step-size history.", "anchors": ["src/TimeIntegrator.C: integrate_realm", "src/Realm.C: swap_states, predict_state, number_of_states"]}
{"id": "C11", "title": "Nonlinear iteration control", "statement": "In every active time step a realm with max_iterations >= 1 performs at least one and at most max_iterations sweeps, stops right after the first sweep that converges, and its last sweep converged unless the limit was reached; a realm only advances on steps divisible by its solve_frequency.", "quantifier": "all convergence histories and iteration limits", "why_tests_cant": "A test runs one deck for a few steps; the claim is about every deck, every number of steps and every step-size history.", "anchors": ["src/Realm.C: advance_time_step, active_time_step"]}
{"id": "C12", "title": "System norm and iteration statistics", "statement": "The reported average, minimum and maximum linear iterations equal the mean, minimum and maximum of the iteration counts recorded since the last dump; the overall convergence flag is true iff every equation system's scaled residual is below its tolerance.", "quantifier": "all histories of linear solves", "why_tests_cant": "A test runs one deck for a few steps; the claim is about every deck, every number of steps and every step-size history.", "anchors": ["src/EquationSystem.C: update_iteration_statistics, system_is_converged", "src/EquationSystems.C: solve_and_update, provide_system_norm"]}
{"id": "C13", "title": "Moving averages stay within the range of their samples", "statement": "The exponentially moving average of a field is a convex combination of its samples: it always lies between the minimum and maximum sample seen, equals the sample on the first step of a fresh run, and is a fixed point on constant signals.", "quantifier": "all sample and step-size histories", "why_tests_cant": "A test runs one deck for a few steps; the claim is about every deck, every number of steps and every step-size history.", "anchors": ["src/MovingAveragePostProcessor.C: compute_and_set_alpha, average_fields"]}
{"id": "C14", "title": "Running turbulence averages are the time-weighted mean since the last reset", "statement": "For the classic filter the Reynolds-averaged primitive equals sum(dt_i*q_i)/sum(dt_i) over the steps since the last filter reset and the Favre average equals sum(rho_i*dt_i*q_i)/sum(rho_i*dt_i).", "quantifier": "all sample, density and step-size histories", "why_tests_cant": "A test runs one deck for a few steps; the claim is about every deck, every number of steps and every step-size history.", "anchors": ["src/TurbulenceAveragingPostProcessing.C: execute, compute_averages"]}
{"id": "C15", "title": "Reynolds and Favre stress are the weighted covariance of the samples", "statement": "The accumulated Reynolds (Favre) stress equals the (density-) time-weighted mean of u_i u_j minus the product of the mean velocities over the samples since reset; it is symmetric with nonnegative diagonal.", "quantifier": "all velocity, density and step-size histories", "why_tests_cant": "A test runs one deck for a few steps; the claim is about every deck, every number of steps and every step-size history.", "anchors": ["src/TurbulenceAveragingPostProcessing.C: compute_reynolds_stress, compute_favre_stress"]}
{"id": "C16", "title": "Temperature variance is the time-weighted variance of the temperature", "statement": "The resolved temperature variance equals mean(T^2) over the averaging window.", "quantifier": "all temperature histories, space dimension 2 or 3", "why_tests_cant": "A test runs one deck for a few steps; the claim is about every deck, every number of steps and every step-size history.", "anchors": ["src/TurbulenceAveragingPostProcessing.C: compute_temperature_resolved_flux"]}
{"id": "C17", "title": "SFS stress uses the velocity gradient of its own node", "statement": "The subfilter stress accumulated at a node depends only on that node's turbulent viscosity, density and velocity gradient.", "quantifier": "all meshes and velocity-gradient fields", "why_tests_cant": "Tests use a handful of meshes; the claim ranges over every mesh, connectivity, ordering and field.", "anchors": ["src/TurbulenceAveragingPostProcessing.C: compute_sfs_stress"]}
{"id": "C18", "title": "Degrees of freedom get unique, contiguous row numbers", "statement": "Every owned and every shared node gets one block of numDof row indices; blocks are disjoint, owned blocks are numbered before shared ones, they are contiguous from zero, and nodes identified by periodicity get the same block.", "quantifier": "all node sets, id orders and dofs per node", "why_tests_cant": "Tests use a handful of meshes; the claim ranges over every mesh, connectivity, ordering and field.", "anchors": ["src/TpetraLinearSystem.C: beginLinearSystemConstruction"]}
{"id": "C19", "title": "Element contributions are added exactly once to the right matrix entries", "statement": "sumInto adds lhs(i,j) to the matrix entry (dof i, dof j) and rhs(i) to the right-hand side, for every entry of the element matrix, in any node order, owned or shared, provided the coupling is in the graph; no other entry changes.", "quantifier": "all element matrices, node orderings, row structures", "why_tests_cant": "Tests use a handful of meshes; the claim ranges over every mesh, connectivity, ordering and field.", "anchors": ["src/TpetraLinearSystem.C: sumInto, sum_into_row"]}
{"id": "C20", "title": "Three-dof fast path agrees with the generic row assembly", "statement": "For three degrees of freedom per node the unrolled row assembly leaves the matrix in the same state as the generic one for every element contribution.", "quantifier": "all rows and contributions", "why_tests_cant": "Tests use a handful of meshes; the claim ranges over every mesh, connectivity, ordering and field.", "anchors": ["src/TpetraLinearSystem.C: sum_into_row_vec_3, sum_into_row_vec"]}
{"id": "C21", "title": "Dirichlet rows enforce the boundary value", "statement": "After applying Dirichlet conditions an owned row is the identity row with right-hand side bcValue - solution, so any exact solve sets solution to bcValue on these nodes and leaves no shared contribution to the row; other rows are unchanged.", "quantifier": "all systems, boundary sets and values", "why_tests_cant": "Tests use a handful of meshes; the claim ranges over every mesh, connectivity, ordering and field.", "anchors": ["src/TpetraLinearSystem.C: applyDirichletBCs"]}
{"id": "C22", "title": "The assembled system does not depend on the partition", "statement": "Summing owned and exported shared contributions over all processes gives the same global matrix and right-hand side as serial assembly, for any assignment of elements to processes and any assembly order.", "quantifier": "all partitions, element lists and orders", "why_tests_cant": "Tests run a few fixed process counts; the claim ranges over every partition of the mesh and every processing order.", "anchors": ["src/TpetraLinearSystem.C: sumInto, loadComplete"]}
{"id": "C23", "title": "Edge scalar transport is discretely conservative", "statement": "The edge-based advection-diffusion contribution to the two end nodes sums to zero in the right-hand side and in every matrix column, so the summed residual over any mesh only has boundary terms.", "quantifier": "all meshes, fields, Peclet blendings, limiters", "why_tests_cant": "Tests use a handful of meshes; the claim ranges over every mesh, connectivity, ordering and field.", "anchors": ["src/AssembleScalarEdgeSolverAlgorithm.C: execute"]}
{"id": "C24", "title": "Edge scalar transport preserves constants and bounds fluxes by upwinding", "statement": "For a uniform scalar with zero gradients, the diffusive flux is zero and the advective flux is mdot*q, for every Peclet factor, alpha and limiter; for full upwinding the interface value is the upwind node's value.", "quantifier": "all fields and options", "why_tests_cant": "A unit test samples a few inputs; the claim must hold at every input of an infinite domain, including the boundary cases.", "anchors": ["src/AssembleScalarEdgeSolverAlgorithm.C: execute"]}
{"id": "C25", "title": "The van Leer limiter stays in [0,2] and vanishes at extrema", "statement": "The limiter is nonnegative, below or equal 1 for one-sided same-sign slopes up to its regularisation, zero when slopes have opposite signs, and symmetric in its arguments.", "quantifier": "all pairs of slopes", "why_tests_cant": "A unit test samples a few inputs; the claim must hold at every input of an infinite domain, including the boundary cases.", "anchors": ["src/AssembleScalarEdgeSolverAlgorithm.C: van_leer"]}
{"id": "C26", "title": "Peclet blending is a blending", "statement": "Every Peclet function returns a value in [0,1], is monotone in the Peclet number, and the classic one tends from central to upwind.", "quantifier": "all Peclet numbers and parameters", "why_tests_cant": "A unit test samples a few inputs; the claim must hold at every input of an infinite domain, including the boundary cases.", "anchors": ["src/PecletFunction.C: ClassicPecletFunction::execute, TanhPecletFunction::execute"]}
{"id": "C27", "title": "Edge nodal gradient of a constant vanishes inside and globally telescopes", "statement": "For edge-based gradients, the volume-weighted sum of gradients over all nodes equals only the boundary terms, and a constant field on a node whose edge area vectors (with the boundary areas) close yields zero gradient.", "quantifier": "all meshes and fields", "why_tests_cant": "Tests use a handful of meshes; the claim ranges over every mesh, connectivity, ordering and field.", "anchors": ["src/AssembleNodalGradEdgeAlgorithm.C: execute", "src/AssembleNodalGradBoundaryAlgorithm.C: execute"]}
{"id": "C28", "title": "Edge mass flow rate is antisymmetric and consistent", "statement": "Reversing an edge negates its mass flow rate; for uniform density and velocity and linear pressure with exact gradient, it equals rho*u.A with no pressure-stabilisation contribution when the non-orthogonal correction is active.", "quantifier": "all edges and fields", "why_tests_cant": "A unit test samples a few inputs; the claim must hold at every input of an infinite domain, including the boundary cases.", "anchors": ["src/ComputeMdotEdgeAlgorithm.C: execute"]}
{"id": "C29", "title": "The mass-balance review does not depend on the number of processes", "statement": "The density accumulation, inflow and open mass rates reported are sums over all mesh entities counted once, whatever the partition.", "quantifier": "all partitions, with or without ghosted elements", "why_tests_cant": "Tests run a few fixed process counts; the claim ranges over every partition of the mesh and every processing order.", "anchors": ["src/ComputeMdotAlgorithmDriver.C: compute_accumulation, post_work"]}
{"id": "C30", "title": "Ideal-gas density is positive, linear in pressure and inverse in temperature; mixture weight is bounded", "statement": "The ideal gas density satisfies rho*R*T = P*MW, is positive for positive inputs, and the mixture molecular weight lies between the smallest and largest species molecular weight when mass fractions are nonnegative and sum to one.", "quantifier": "all pressures, temperatures, compositions", "why_tests_cant": "A unit test samples a few inputs; the claim must hold at every input of an infinite domain, including the boundary cases.", "anchors": ["src/property_evaluator/IdealGasPropertyEvaluator.C"]}
{"id": "C31", "title": "Mixture viscosity is bounded by the species viscosities", "statement": "Mole fractions computed from mass fractions sum to one and are nonnegative, and the mixture viscosity lies between the smallest and largest species viscosity.", "quantifier": "all compositions, temperatures and species lists", "why_tests_cant": "A unit test samples a few inputs; the claim must hold at every input of an infinite domain, including the boundary cases.", "anchors": ["src/property_evaluator/SutherlandsPropertyEvaluator.C"]}
{"id": "C32", "title": "Specific heat is the derivative of enthalpy", "statement": "For polynomial, constant-Cp and water models the derivative with respect to temperature of the enthalpy evaluator is the specific heat evaluator (away from the low/high switch).", "quantifier": "all temperatures, polynomials and compositions", "why_tests_cant": "A unit test samples a few inputs; the claim must hold at every input of an infinite domain, including the boundary cases.", "anchors": ["src/property_evaluator/EnthalpyPropertyEvaluator.C", "src/property_evaluator/SpecificHeatPropertyEvaluator.C", "src/property_evaluator/WaterPropertyEvaluator.C"]}
{"id": "C33", "title": "Temperature extraction stays in bounds and consistent", "statement": "After extracting temperature from enthalpy, the temperature lies in [minT, maxT]; whenever the Newton iteration failed or was clipped the stored enthalpy is the enthalpy of the stored temperature; with constant specific heat the extraction is exact after one iteration.", "quantifier": "all enthalpy/Cp evaluators and starting guesses", "why_tests_cant": "A unit test samples a few inputs; the claim must hold at every input of an infinite domain, including the boundary cases.", "anchors": ["src/EnthalpyEquationSystem.C: extract_temperature"]}
{"id": "C34", "title": "Table interpolation is exact at knots, bounded between neighbours and continuous", "statement": "Linear interpolation on a strictly increasing table returns the table value at each knot, lies between the neighbouring table values, is affine between them, clamps outside with CLAMP and errors with ERROR.", "quantifier": "all tables with at least two entries and all arguments", "why_tests_cant": "A unit test samples a few inputs; the claim must hold at every input of an infinite domain, including the boundary cases.", "anchors": ["include/utils/LinearInterpolation.h"]}
{"id": "C35", "title": "LU solve solves the system", "statement": "Whenever the factorisation meets no zero pivot, back substitution returns x with A x = b for every b, for every dimension.", "quantifier": "all dimensions, matrices, right-hand sides", "why_tests_cant": "A unit test samples a few inputs; the claim must hold at every input of an infinite domain, including the boundary cases.", "anchors": ["src/tabular_props/LU.C"]}
{"id": "C36", "title": "Periodic pairs cover every subject node exactly once", "statement": "With one, two or three periodic pairs (including corner and edge nodes lying on several subject surfaces) after augmentation and removal of redundant nodes every subject node belongs to exactly one pair's subject set.", "quantifier": "all mesh part memberships", "why_tests_cant": "Tests use a handful of meshes; the claim ranges over every mesh, connectivity, ordering and field.", "anchors": ["src/PeriodicManager.C: augment_periodic_selector_pairs, remove_redundant_subject_nodes"]}
{"id": "C37", "title": "Periodic constraints sum and copy", "statement": "After apply_constraints the monarch holds its own value plus all its subjects' values, each subject equals its monarch, other nodes are untouched; the max variant gives all of them the maximum for single-subject monarchs.", "quantifier": "all monarch/subject pairings in which no subject is a monarch, all fields", "why_tests_cant": "Tests use a handful of meshes; the claim ranges over every mesh, connectivity, ordering and field.", "anchors": ["src/PeriodicManager.C: apply_constraints, add_subject_to_monarch, set_subject_to_monarch, apply_max_field"]}
{"id": "C38", "title": "Periodic search retry terminates", "statement": "The search is repeated with an adjusted tolerance at most maxErrorCount times and then errors out; on success the number of pairs equals the number of subject nodes.", "quantifier": "all search outcomes", "why_tests_cant": "A test runs one deck for a few steps; the claim is about every deck, every number of steps and every step-size history.", "anchors": ["src/PeriodicManager.C: error_check, finalize_search"]}
{"id": "C39", "title": "Interface balancing moves nodes only to sharing, less loaded processes", "statement": "One balancing sweep on a process moves only nodes it owns, at most once, only to another process sharing the node, and exactly when some sharing process is recorded as having strictly fewer nodes (then to such a process); the recorded node counts are conserved and no count leaves the range of the initial counts.", "quantifier": "all interface descriptions, ownerships, node counts and visiting orders", "why_tests_cant": "Depends on every partition and sharing pattern; tests run a few fixed decompositions.", "anchors": ["src/InterfaceBalancer.C:InterfaceBalancer::changeOwnersOfNodes", "src/InterfaceBalancer.C:InterfaceBalancer::balance_node_entities"]}
{"id": "C40", "title": "Shape functions are a partition of unity and interpolate nodes", "statement": "For every linear element topology the shape functions sum to one at every parametric point, take value one at their own node and zero at the others, and reproduce linear fields.", "quantifier": "all parametric points and nodal fields", "why_tests_cant": "A unit test samples a few inputs; the claim must hold at every input of an infinite domain, including the boundary cases.", "anchors": ["src/master_element/Hex8CVFEM.C", "src/master_element/Tet4CVFEM.C", "src/master_element/Wed6CVFEM.C", "src/master_element/Pyr5CVFEM.C", "src/master_element/Quad42DCVFEM.C", "src/master_element/Tri32DCVFEM.C"]}
{"id": "C41", "title": "Shape function derivatives are the derivatives of the shape functions", "statement": "The parametric derivative arrays are the exact partial derivatives of the shape functions, so they sum to zero and the gradient operator is exact for linear fields on every non-degenerate element.", "quantifier": "all parametric points and element geometries", "why_tests_cant": "A unit test samples a few inputs; the claim must hold at every input of an infinite domain, including the boundary cases.", "anchors": ["src/master_element/Hex8CVFEM.C: hex8_derivative", "include/master_element/MasterElementFunctions.h: generic_grad_op"]}
{"id": "C42", "title": "Dual control volumes are closed", "statement": "For every element geometry, the signed sub-control-surface area vectors around each node plus that node's share of the element's faces sum to zero.", "quantifier": "all (also distorted) element coordinates", "why_tests_cant": "A unit test samples a few inputs; the claim must hold at every input of an infinite domain, including the boundary cases.", "anchors": ["src/master_element/Hex8CVFEM.C: HexSCS::determinant", "src/master_element/Quad42DCVFEM.C", "include/master_element/Hex8GeometryFunctions.h"]}
{"id": "C43", "title": "Sub-control volumes tile the element", "statement": "The sub-control volumes of an element add up to the element volume for every element geometry.", "quantifier": "all element coordinates", "why_tests_cant": "A unit test samples a few inputs; the claim must hold at every input of an infinite domain, including the boundary cases.", "anchors": ["src/master_element/Hex8CVFEM.C: HexSCV::determinant", "include/master_element/Hex8GeometryFunctions.h", "src/master_element/Tri32DCVFEM.C"]}
{"id": "C44", "title": "Point-in-element search and interpolation are inverse to each other", "statement": "When the point search returns converged parametric coordinates with zero update, interpolating the nodal coordinates there gives the point back; for affine elements this happens within two iterations for every point; a parametric distance at most one holds exactly when the point is in the element.", "quantifier": "all points and element geometries", "why_tests_cant": "A unit test samples a few inputs; the claim must hold at every input of an infinite domain, including the boundary cases.", "anchors": ["src/master_element/Hex8CVFEM.C: isInElement, interpolatePoint", "src/master_element/Tet4CVFEM.C: isInElement", "src/master_element/Quad42DCVFEM.C: isInElement"]}
{"id": "C45", "title": "Prescribed rigid mesh rotation is an isometry", "statement": "The rotated coordinates keep all distances between mesh points and to the rotation axis for a unit axis; the mesh velocity equals omega cross r and is tangential.", "quantifier": "all angles, axes, points", "why_tests_cant": "A unit test samples a few inputs; the claim must hold at every input of an infinite domain, including the boundary cases.", "anchors": ["src/Realm.C: set_current_displacement, set_mesh_velocity"]}
{"id": "C46", "title": "Six-dof attitude update integrates the attitude ODE", "statement": "Each attitude update over a step dt is the classical fourth-order Runge-Kutta step for the quaternion kinematics, so a constant body rate over step dt is integrated to fourth order.", "quantifier": "all body rates, quaternions, step sizes", "why_tests_cant": "A unit test samples a few inputs; the claim must hold at every input of an infinite domain, including the boundary cases.", "anchors": ["src/Realm.C: update_body_cc, advance_omega_dt, update_body_vel"]}
{"id": "C47", "title": "Rotation matrices from quaternions are rotations", "statement": "For a unit quaternion the rotation matrix is orthogonal with determinant one, and the inverse option returns its inverse.", "quantifier": "all unit quaternions", "why_tests_cant": "A unit test samples a few inputs; the claim must hold at every input of an infinite domain, including the boundary cases.", "anchors": ["src/Realm.C: get_rotmat_from_quat"]}
{"id": "C48", "title": "Mass fractions at every node are bounded and sum to one", "statement": "After every mass-fraction update all species mass fractions of a node lie in [0,1] (up to the clipping margin) and sum to one, whatever the linear solver returned.", "quantifier": "all species counts and all solver results", "why_tests_cant": "holds for arbitrary solver output vectors and any number of species", "anchors": ["src/MassFractionEquationSystem.C:compute_nth_mass_fraction"]}
{"id": "C49", "title": "A realm that is not solved on a step keeps its solution", "statement": "On time steps not divisible by the realm's solve_frequency, the newest state of every state field keeps the last accepted value.", "quantifier": "all solve frequencies, fields and numbers of consecutive inactive steps", "why_tests_cant": "depends on the whole history of buffer rotations", "anchors": ["src/Realm.C:swap_states", "src/Realm.C:active_time_step", "src/Realm.C:advance_time_step", "src/TimeIntegrator.C:integrate_realm"]}
{"id": "C50", "title": "Moving exponential averages stay within the range of the samples", "statement": "With the moving-exponential averaging option, the averaged value at every node after every step lies between the smallest and the largest sample seen, and a constant signal stays constant.", "quantifier": "all histories of samples, step sizes, filter windows and forced resets", "why_tests_cant": "depends on every history of steps and resets", "anchors": ["src/TurbulenceAveragingPostProcessing.C:execute", "src/TurbulenceAveragingPostProcessing.C:compute_averages"]}
{"id": "C51", "title": "The resolved stress is the mean of density times velocity products over the window", "statement": "After any history of steps, resolved_stress(i,j) equals the time-weighted mean of rho*u_i*u_j over the samples of the current averaging window.", "quantifier": "all histories of samples, resets and window lengths, all component pairs", "why_tests_cant": "an inductive statement over all histories", "anchors": ["src/TurbulenceAveragingPostProcessing.C:compute_resolved_stress"]}
{"id": "C52", "title": "Q-criterion and vorticity are the textbook invariants of the velocity gradient", "statement": "For every velocity gradient the stored q_criterion is its second invariant and the vorticity is the dual of twice its antisymmetric part (zero for symmetric gradients, 2w for a rigid rotation w).", "quantifier": "all velocity gradients", "why_tests_cant": "holds for all real matrices", "anchors": ["src/TurbulenceAveragingPostProcessing.C:compute_q_criterion", "src/TurbulenceAveragingPostProcessing.C:compute_vorticity"]}
{"id": "C53", "title": "Edge matrices are the exact linearisation of the edge residuals", "statement": "With gradients, properties and mass flow rates frozen and the limiter off, the assembled residual at q+dq equals the residual at q minus the assembled matrix times dq, for the scalar (with open boundaries) and the momentum edge equations; so an exact linear solve removes the residual in one iteration.", "quantifier": "all meshes, fields, options, increments", "why_tests_cant": "identity over all meshes and real fields", "anchors": ["src/AssembleScalarEdgeSolverAlgorithm.C:execute", "src/AssembleMomentumEdgeSolverAlgorithm.C:execute", "src/AssembleScalarEdgeOpenSolverAlgorithm.C:execute"]}
{"id": "C54", "title": "After the pressure solve the mass flow rates satisfy discrete continuity", "statement": "If the pressure correction solves the assembled continuity system, the mass flow rates recomputed with the corrected pressure balance exactly at every node (edges, open faces, inflow, density accumulation), and hence the total mass closure printed by the mass-balance review is zero; velocity projection does not change the edge mass flow rates.", "quantifier": "all meshes, densities, velocities, pressures, boundary data", "why_tests_cant": "exact conservation statement for all meshes and fields", "anchors": ["src/AssembleContinuityEdgeSolverAlgorithm.C:execute", "src/AssembleContinuityEdgeOpenSolverAlgorithm.C:execute", "src/ComputeMdotEdgeAlgorithm.C:execute", "src/ComputeMdotEdgeOpenAlgorithm.C:execute", "src/LowMachEquationSystem.C:solve_and_update", "src/LowMachEquationSystem.C:project_nodal_velocity"]}
{"id": "C55", "title": "Edge fluxes are exact for linear fields", "statement": "For a linear scalar or velocity field with exact nodal gradients and the non-orthogonal correction on, the edge diffusive/viscous flux equals the exact flux through the area vector on every edge geometry; rigid-body motion feels no viscous force; the second-order advective flux uses the exact midpoint value.", "quantifier": "all edge geometries, linear fields, blendings", "why_tests_cant": "holds for all geometries and linear fields", "anchors": ["src/AssembleScalarEdgeSolverAlgorithm.C:execute", "src/AssembleMomentumEdgeSolverAlgorithm.C:execute"]}
{"id": "C56", "title": "A balancing iteration does not worsen the node imbalance", "statement": "After all processes have swept once from the same exchanged counts, the largest node count is not larger and the smallest not smaller than before. (True for two processes; false in general: the processes do not coordinate, see the counterexample theorem.)", "quantifier": "all process counts, ownerships and interface descriptions", "why_tests_cant": "A statement about all distributed partitions and simultaneous moves by several processes.", "anchors": ["src/InterfaceBalancer.C:InterfaceBalancer::balance_node_entities", "src/InterfaceBalancer.C:InterfaceBalancer::changeOwnersOfNodes"]}
{"id": "C57", "title": "Graph rows are sorted, duplicate-free and contain exactly the inserted couplings", "statement": "Starting from an empty row of sufficient capacity, after any sequence of insertions of column-block starts a matrix-graph row lists, first, every inserted block exactly once, in increasing order, each block as numDof consecutive columns, followed by unused slots; the trimmed length is the number of used slots, and such a row is a legal target for assembly.", "quantifier": "every number of dofs per node, every capacity, every sequence of inserted blocks in any order with repetitions", "why_tests_cant": "insertion orders and repetitions are unbounded; a sample cannot show the row stays sorted and complete for all of them", "anchors": ["include/LinearSolver.h: LocalGraphArrays, insert_indices, find_invalid", "src/TpetraLinearSystem.C: insert_graph_connections, remove_invalid_indices"]}
{"id": "C58", "title": "The graph built from the mesh contains every coupling that will be assembled", "statement": "If the graph was built from a set of mesh entities, then for every ordered pair of nodes of any of these entities the row of the first has the columns of the second, the precomputed row length is exactly what all insertions need, and any contribution of one of those entities can be summed into the rows without losing an entry.", "quantifier": "every set of entities of any node counts, every node numbering, every number of dofs", "why_tests_cant": "depends on all mesh topologies and numberings; a missing coupling is silently dropped on some meshes only", "anchors": ["src/TpetraLinearSystem.C: addConnections, compute_graph_row_lengths, insert_graph_connections, insert_single_communicated_col"]}
{"id": "C59", "title": "Side parametric coordinates map to the same physical point in the element", "statement": "For every side of every element topology, interpolating any nodal field with the side's shape functions at side parametric coordinates gives the same value as interpolating it with the element's shape functions at the element coordinates returned by sidePcoords_to_elemPcoords; ordinals that are not sides are refused.", "quantifier": "all sides, side parametric points and nodal fields", "why_tests_cant": "A unit test samples a few points per side; the claim must hold for all of them.", "anchors": ["src/master_element/Hex8CVFEM.C: sidePcoords_to_elemPcoords", "src/master_element/Tet4CVFEM.C: sidePcoords_to_elemPcoords", "src/master_element/Wed6CVFEM.C: sidePcoords_to_elemPcoords", "src/master_element/Pyr5CVFEM.C: sidePcoords_to_elemPcoords", "src/master_element/Quad42DCVFEM.C: sidePcoords_to_elemPcoords", "src/master_element/Tri32DCVFEM.C: sidePcoords_to_elemPcoords"]}
{"id": "C60", "title": "The computed centre of rotation is the midpoint of the part's bounding box", "statement": "When the input asks for the centroid to be computed, the result in each direction is the midpoint of the smallest and the largest nodal coordinate of the listed parts over all processes, whatever the distribution of nodes over processes, and it moves with the part.", "quantifier": "all node sets, all distributions over processes", "why_tests_cant": "Distributions of nodes over processes, including processes without nodes, cannot be enumerated.", "anchors": ["src/Realm.C: compute_centroid_on_parts"]}
{"id": "C61", "title": "Sub-control surfaces point from the left to the right node", "statement": "For every tetrahedron, every triangle, every parallelepiped hexahedron, every prism wedge and every pyramid over a parallelogram with positive volume, and every convex counter-clockwise 2D quadrilateral, each sub-control-surface area vector returned by the master element satisfies area . (x_right - x_left) > 0 for the left/right nodes the element reports (with the exact fraction of the element volume), so that the edge diffusion coefficient asq/axdx is well defined and positive.", "quantifier": "all nodal coordinates of the given shapes", "why_tests_cant": "holds for every geometry; the unit tests check one reference element of each topology", "anchors": ["src/master_element/Hex8CVFEM.C HexSCS::determinant, adjacentNodes", "src/master_element/Tet4CVFEM.C TetSCS::determinant", "src/master_element/Wed6CVFEM.C", "src/master_element/Pyr5CVFEM.C", "src/master_element/Quad42DCVFEM.C", "src/master_element/Tri32DCVFEM.C", "src/AssembleScalarEdgeSolverAlgorithm.C"]}
{"id": "C62", "title": "Explicit gas dynamics conserves mass, momentum and energy", "statement": "In one explicit gas-dynamics time step with any number of nonlinear sweeps, the volume-weighted total of density, each momentum component and total energy changes exactly by minus dt times the flux through the boundary faces; in a closed domain the totals are unchanged over any history of steps. The result does not depend on the orientation of the edges, and Dirichlet nodes keep their values.", "quantifier": "all meshes (edge lists), nodal states, step sizes, numbers of sweeps and steps", "why_tests_cant": "conservation is a statement over all states and histories", "anchors": ["src/gas_dynamics/AssembleGasDynamicsFluxAlgorithm.C execute", "src/gas_dynamics/AssembleGasDynamicsSymmetryAlgorithm.C execute", "src/gas_dynamics/GasDynamicsEquationSystem.C update_gas_dynamics, predict_state"]}
{"id": "C63", "title": "The AUSM edge flux is consistent, upwinded and preserves a uniform flow", "statement": "For every Mach number the split Mach numbers add up to the Mach number with the right signs, the pressure weights lie in [0,1] and add up to one, there is no jump at the sonic points and supersonic flow is taken from the upwind side only; between equal states the flux is the exact Euler flux; a uniform flow gives zero residual at every node whose dual volume is closed.", "quantifier": "all Mach numbers, area vectors, states, meshes", "why_tests_cant": "a test samples a few Mach numbers and one mesh", "anchors": ["src/gas_dynamics/AssembleGasDynamicsFluxAlgorithm.C execute"]}
{"id": "C64", "title": "Gas-dynamics auxiliary variables are mutually consistent", "statement": "Recomputing pressure from total energy and total energy from pressure are inverse to each other, likewise velocity and momentum; the recovered pressure and temperature satisfy the ideal-gas law, the total enthalpy is total energy plus pressure, positive internal energy gives positive pressure, temperature and speed of sound, and the Mach number times the speed of sound is the flow speed.", "quantifier": "all densities, momenta, energies and gas properties with nonzero denominators", "why_tests_cant": "identity over all states", "anchors": ["src/gas_dynamics/GasDynamicsEquationSystem.C compute_pressure, compute_temperature, compute_total_energy, compute_total_enthalpy, compute_velocity, compute_momentum, compute_speed_of_sound, compute_mach_number"]}
{"id": "C65", "title": "Gas-dynamics open boundaries use the specified static or total pressure", "statement": "At an open boundary mass leaves where the flow points out and enters where it points in; leaving flow uses the specified pressure as static pressure (and is fully upwinded when supersonic), entering flow uses static pressure = specified total pressure minus rho |u|^2 / 2.", "quantifier": "all boundary states and area vectors", "why_tests_cant": "holds or fails depending on the direction of the flow; regression decks cover one direction", "anchors": ["src/gas_dynamics/AssembleGasDynamicsOpenAlgorithm.C execute"]}
{"id": "C66", "title": "The wall-function friction velocity solves the law of the wall", "statement": "For a positive wall distance, density and viscosity and any tangential speed, the law of the wall u_p/u_tau = ln(E y+)/kappa has exactly one friction velocity above the critical y+; the Newton iteration that computes it never returns a value below that solution, reports convergence only when the result is within the tolerance-controlled error of it, and does converge once the iteration limit is large enough.", "quantifier": "all tangential speeds, wall distances, densities, viscosities, tolerances and iteration limits", "why_tests_cant": "convergence of a Newton iteration over a continuum of starting data cannot be settled by sampling; unit tests check one speed", "anchors": ["src/ComputeWallFrictionVelocityAlgorithm.C compute_utau", "src/ComputeWallFrictionVelocityAlgorithm.C execute"]}
{"id": "C67", "title": "The wall-function force is a tangential drag equal to the wall shear stress", "statement": "The force a wall-function boundary adds to the momentum equation has no component along the wall normal, never does positive work on the velocity relative to the wall, its magnitude is rho u_tau^2 times area when u_tau satisfies the law of the wall and mu u_p / y_p in the viscous sublayer; the matrix block assembled is its exact derivative at fixed coefficient, symmetric and positive semidefinite.", "quantifier": "all normals, velocities, wall velocities and fluid data in any dimension", "why_tests_cant": "quantifies over all orientations; the tests use axis-aligned walls", "anchors": ["src/AssembleMomentumEdgeWallFunctionSolverAlgoirthm.C execute", "src/AssembleMomentumElemWallFunctionSolverAlgoirthm.C execute"]}
{"id": "C68", "title": "Wall distance and its nodal average", "statement": "The normal distance used by the wall model is the distance of the quarter point of the wall edge from the wall plane; the nodal wall distance is the area-weighted mean of the integration-point values, independent of the order of faces; the minimum wall distance is clipped from below by it once, and not again on restart.", "quantifier": "all wall orientations, edges, face orders and numbers of integration points", "why_tests_cant": "the orientation dependence shows only for walls oblique to the axes", "anchors": ["src/ComputeWallFrictionVelocityAlgorithm.C execute", "src/WallFunctionParamsAlgorithmDriver.C", "src/ShearStressTransportEquationSystem.C clip_min_distance_to_wall"]}
{"id": "C69", "title": "Wall values of the turbulence variables are mutually consistent", "statement": "The wall-function values of turbulent kinetic energy, dissipation and specific dissipation computed from one friction velocity give back the mixing-length eddy viscosity rho kappa u_tau y_p in both the k-epsilon and the k-omega closures, and are positive for positive data.", "quantifier": "all positive friction velocities, wall distances and model constants", "why_tests_cant": "an identity between three separately coded formulas for all data", "anchors": ["src/ComputeWallModelTurbDissipationWallAlgorithm.C", "src/ComputeWallModelSDRWallAlgorithm.C", "src/ComputeLowReynoldsSDRWallAlgorithm.C", "src/TurbKineticEnergyEquationSystem.C"]}
{"id": "C70", "title": "Eddy viscosities are non-negative, frame indifferent and vanish where they should", "statement": "Every turbulence closure gives a non-negative eddy viscosity for admissible data; Smagorinsky, WALE and SST viscosities do not change under a rotation of the axes; Smagorinsky vanishes exactly for rigid motion, WALE in pure shear up to its floor; the SST viscosity is at most rho k / omega; the dynamic coefficient never drives the total viscosity negative; blending functions lie in [0,1] and blended coefficients between their end values; the production product equals the squared strain rate.", "quantifier": "all velocity gradients in any dimension, all rotations, all positive states", "why_tests_cant": "frame indifference and sign over a continuum of gradients", "anchors": ["src/TurbViscSmagorinskyAlgorithm.C", "src/TurbViscWaleAlgorithm.C", "src/TurbViscSSTAlgorithm.C", "src/TurbViscKEpsilonAlgorithm.C", "src/TurbViscKsgsAlgorithm.C", "src/ComputeSSTMaxLengthScaleElemAlgorithm.C", "src/EffectiveSSTDiffFluxCoeffAlgorithm.C", "src/ShearStressTransportEquationSystem.C compute_f_one_blending"]}
{"id": "C71", "title": "Turbulence variables stay positive after each update", "statement": "Whatever increment the linear solver returns, the stored kinetic energy and dissipation (or specific dissipation) are positive after the update, values that were admissible are stored unchanged, and a clipped node gets the molecular viscosity as eddy viscosity consistently with its new values.", "quantifier": "all previous states and all solver increments", "why_tests_cant": "depends on arbitrary solver output, including exact zeros", "anchors": ["src/ShearStressTransportEquationSystem.C update_and_clip", "src/KEpsilonEquationSystem.C update_and_clip", "src/TurbKineticEnergyEquationSystem.C update_and_clip"]}
{"id": "C72", "title": "Turbulence source terms are linearised so that point-implicit updates keep positivity", "statement": "Production is limited to a multiple of dissipation; the matrix diagonal of each source term is non-negative and is at least (for tke: exactly) the derivative of the destruction term; a point-implicit step with it keeps kinetic energy and dissipation non-negative (for omega: unless negative cross-diffusion exceeds the destruction).", "quantifier": "all states, velocity gradients, model constants and time-step masses", "why_tests_cant": "sign and derivative statements over all states", "anchors": ["src/TurbKineticEnergySSTNodeSourceSuppAlg.C", "src/TurbKineticEnergySSTDESNodeSourceSuppAlg.C", "src/TurbKineticEnergyKsgsNodeSourceSuppAlg.C", "src/SpecificDissipationRateSSTNodeSourceSuppAlg.C", "src/TurbKineticEnergyKEpsilonNodeSourceSuppAlg.C", "src/TurbDissipationKEpsilonNodeSourceSuppAlg.C"]}
{"id": "C73", "title": "Mixture fraction and volume fraction stay in their bounds", "statement": "After an update the scalar lies in [-delta, 1+delta], is the point of that interval nearest to the solver's value, and is exactly the solver's value when that was admissible.", "quantifier": "all previous values and increments", "why_tests_cant": "depends on arbitrary solver output", "anchors": ["src/MixtureFractionEquationSystem.C update_and_clip", "src/VolumeOfFluidEquationSystem.C"]}
{"id": "C74", "title": "Mass fractions add up to one after the clip", "statement": "After the update the transported mass fractions lie in their bounds, all mass fractions add up to one, each lies in [0,1], and repeating the clip changes nothing.", "quantifier": "all numbers of species and all solver results", "why_tests_cant": "ranges over all species counts and compositions", "anchors": ["src/MassFractionEquationSystem.C compute_nth_mass_fraction"]}
{"id": "C75", "title": "Reported clip counts and extremes describe the values that were clipped", "statement": "The counts of values clipped low and high that the log reports are the numbers of such nodes over all processes, and the reported extreme values are the least and greatest values the solver returned at clipped nodes.", "quantifier": "all process counts, all distributions of nodes and values", "why_tests_cant": "ranges over decompositions; shared nodes matter", "anchors": ["src/MixtureFractionEquationSystem.C update_and_clip"]}
{"id": "C76", "title": "The vectorised element loop computes what the element-by-element loop computes", "statement": "Assembling an element algorithm over a bucket in groups of SIMD width processes every element exactly once, pads only the last group, and adds to the linear system exactly the contributions, in the same order, that a plain loop over the elements with the same kernel would add, whatever the SIMD width.", "quantifier": "all bucket lengths (including 0 and non-multiples of the width), all SIMD widths >= 1, all lane-wise kernels, all field values", "why_tests_cant": "ranges over all bucket lengths, widths and kernels; a test sees one width per build", "anchors": ["include/SimdInterface.h get_num_simd_groups/get_length_of_next_simd_group", "include/CopyAndInterleave.h copy_and_interleave/extract_vector_lane", "include/AssembleElemSolverAlgorithm.h run_algorithm", "src/AssembleElemSolverAlgorithm.C execute"]}
{"id": "C77", "title": "The face-element loop processes every face once, with its own face ordinal", "statement": "Grouping the faces of a bucket into SIMD runs of equal element-face ordinal yields runs whose concatenation is the bucket in order, none longer than the SIMD width, and in each of which all faces have the ordinal used to pick the face's integration points.", "quantifier": "all face buckets, all assignments of face ordinals, all SIMD widths", "why_tests_cant": "ranges over all sequences of ordinals", "anchors": ["include/AssembleFaceElemSolverAlgorithm.h run_face_elem_algorithm"]}
{"id": "C78", "title": "The scratch memory requested is enough for every array the data requests create", "statement": "The per-thread scratch size computed from a set of data requests is at least the total size of all arrays that are afterwards carved out of it, for all requests, topologies and SIMD widths, so that the allocation never runs past the arena.", "quantifier": "all sets of master-element requests and fields, all topology sizes, all SIMD widths", "why_tests_cant": "ranges over all combinations of requests", "anchors": ["include/ScratchViews.h create_needed_field_views/create_needed_master_element_views", "src/ScratchViews.C get_num_scalars_pre_req_data", "include/SharedMemData.h"]}
{"id": "C79", "title": "Data requested by a kernel is gathered in the shape requested", "statement": "Every master-element request fills an array holding the requested result, two different requests do not silently overwrite each other's results, and every accepted field request is served with the shape asked for, while requests for one field with different shapes are rejected.", "quantifier": "all sequences of field requests, all master-element requests", "why_tests_cant": "ranges over all request sequences from all kernel combinations", "anchors": ["include/ElemDataRequests.h", "src/ElemDataRequests.C add_gathered_nodal_field/add_element_field", "include/ScratchViews.h", "include/CopyAndInterleave.h"]}
{"id": "C80", "title": "Assembled edge area vectors close every control volume", "statement": "After the geometry is computed, at every node of a conforming mesh the area vectors of its edges (counted outward) and the exposed area vectors of its boundary faces add up to zero, whatever the node coordinates, the direction in which each edge lists its nodes, the distribution of elements over processes, the order of elements and the previous content of the fields; hence the edge-based nodal gradient of a uniform field vanishes everywhere.", "quantifier": "all conforming meshes of hex/tet/wedge/pyramid (and quad/tri in the plane), all coordinates, all edge orientations, all decompositions and orders, all previous field contents", "why_tests_cant": "ranges over all meshes, orientations and decompositions", "anchors": ["src/ComputeGeometryInteriorAlgorithm.C execute", "src/ComputeGeometryAlgorithmDriver.C pre_work/post_work", "src/master_element/*CVFEM.C scsIpEdgeOrd_", "src/AssembleNodalGradEdgeAlgorithm.C"]}
{"id": "C81", "title": "Dual nodal volumes tile the mesh", "statement": "The dual nodal volume of a node is the sum of the sub-control volumes of the elements at that node, each counted once on however many processes, and the dual volumes of all nodes add up to the volume enclosed by the boundary faces.", "quantifier": "all conforming meshes, coordinates, decompositions, previous field contents", "why_tests_cant": "ranges over all meshes and decompositions", "anchors": ["src/ComputeGeometryInteriorAlgorithm.C execute", "src/ComputeGeometryAlgorithmDriver.C"]}
{"id": "C82", "title": "The Jacobian check stops the run on a bad mesh", "statement": "With the check enabled, a mesh with an inverted or flat element stops the run on every process, and an accepted mesh has positive dual nodal volumes.", "quantifier": "all meshes and decompositions", "why_tests_cant": "ranges over all meshes and decompositions", "anchors": ["src/ComputeGeometryAlgorithmDriver.C check_jacobians"]}
{"id": "C83", "title": "Element kernels move quantities between nodes, never create them", "statement": "Every interior element kernel (scalar and momentum advection-diffusion, central and upwind, diffusion, continuity advection) adds to the right-hand side and to every matrix column of the element contributions that sum to zero over the element's nodes; so on any mesh the assembled interior equations neither create nor destroy the transported quantity.", "quantifier": "all elements (any node count, integration points, geometry), fields, mass flow rates, blending options, meshes", "why_tests_cant": "ranges over all elements, meshes and fields", "anchors": ["src/kernel/ScalarAdvDiffElemKernel.C", "src/kernel/ScalarUpwAdvDiffElemKernel.C", "src/kernel/MomentumAdvDiffElemKernel.C", "src/kernel/MomentumUpwAdvDiffElemKernel.C", "src/kernel/ContinuityAdvElemKernel.C"]}
{"id": "C84", "title": "Element kernels assemble an exact linearisation", "statement": "For every element and boundary kernel, what it adds to the matrix is the exact derivative of what it adds to the residual with respect to the unknown (gradients, mass flow rates and properties held fixed, limiter off), so on a whole mesh a correction that solves a row makes the re-evaluated residual of that row zero. The explicit divergence stress of the momentum kernels is the only term left out, and the exact deviation is given.", "quantifier": "all elements, faces, meshes, unknowns, corrections, options", "why_tests_cant": "ranges over all meshes, fields and corrections", "anchors": ["src/kernel/*ElemKernel.C execute", "src/AssembleElemSolverAlgorithm.C"]}
{"id": "C85", "title": "Element kernels are exact on constants and linear fields", "statement": "With shape functions that sum to one and gradients exact on coordinates, a uniform field is transported only by the imbalance of the mass flow rates; a linear field is advected with its exact value and diffused with its exact flux, with central and second-order upwind schemes alike; rigid-body motion is free of viscous stress; uniform and linear pressures drive no mass flow through the stabilisation.", "quantifier": "all elements, affine fields, blending parameters, mass flow rates", "why_tests_cant": "ranges over all elements and fields", "anchors": ["src/kernel/ScalarUpwAdvDiffElemKernel.C", "src/kernel/MomentumAdvDiffElemKernel.C", "src/kernel/ContinuityAdvElemKernel.C"]}
{"id": "C86", "title": "Element time terms and body forces account for the element's content", "statement": "The mass kernels take from the element exactly the discrete rate of change of its content; a steady field contributes nothing; a lumped mass matrix is diagonal; the momentum kernel subtracts exactly the volume integral of the pressure gradient; buoyancy is the excess mass times gravity and the Boussinesq source equals it for the linearised equation of state; the GCL term removes the uniform field times the divergence of the mesh velocity.", "quantifier": "all elements, fields, time levels, schemes", "why_tests_cant": "ranges over all elements and histories of the field", "anchors": ["src/kernel/ScalarMassElemKernel.C", "src/kernel/MomentumMassElemKernel.C", "src/kernel/MomentumBuoyancySrcElemKernel.C", "src/kernel/MomentumBuoyancyBoussinesqSrcElemKernel.C", "src/kernel/ScalarGclElemKernel.C"]}
{"id": "C87", "title": "Element-based discrete continuity after the pressure solve", "statement": "If the pressure correction solves the continuity row of a node, the mass flow rates recomputed at the corrected pressure balance exactly at that node (interior surfaces, open faces, inflow, accumulation); if every row is solved the total mass closure is zero. Without open boundary the system is solvable only if inflow balances accumulation, and the pressure level is free.", "quantifier": "all meshes of mixed element types, geometries, fields, time schemes", "why_tests_cant": "ranges over all meshes and fields", "anchors": ["src/kernel/ContinuityAdvElemKernel.C", "src/kernel/ContinuityMassElemKernel.C", "src/kernel/ContinuityOpenElemKernel.C", "src/kernel/ContinuityInflowElemKernel.C", "src/ComputeMdotElemAlgorithm.C", "src/ComputeMdotElemOpenAlgorithm.C"]}
{"id": "C88", "title": "Open boundaries and upwinding of the element scheme", "statement": "Pure upwinding adds nothing positive off the diagonal and row sums equal to the net outflow. At an open boundary, entering fluid carries only the specified scalar value, leaving fluid never sees it; entrained momentum has the normal velocity of the mass flow rate and the specified tangential velocity; the viscous force on an open boundary has no normal component and equals the traction tangentially; the weak Dirichlet flux is consistent.", "quantifier": "all elements, faces, fields, mass flow rates", "why_tests_cant": "ranges over all faces and fields", "anchors": ["src/kernel/ScalarOpenAdvElemKernel.C", "src/kernel/MomentumOpenAdvDiffElemKernel.C", "src/kernel/ScalarFluxPenaltyElemKernel.C", "src/kernel/ScalarUpwAdvDiffElemKernel.C"]}
{"id": "C89", "title": "A uniform field stays uniform (free-stream preservation)", "statement": "When the continuity equation of a node has been solved, a scalar that is the same constant at all time levels and on the open boundary has exactly zero residual at that node, for densities varying in space and time; likewise a uniform velocity with no pressure gradient at a node away from boundaries.", "quantifier": "all meshes of mixed element types, densities, mass flow rates from the pressure solve, schemes and options", "why_tests_cant": "ranges over all meshes and flow fields", "anchors": ["src/kernel/ScalarUpwAdvDiffElemKernel.C", "src/kernel/ScalarMassElemKernel.C", "src/kernel/ScalarOpenAdvElemKernel.C", "src/kernel/MomentumUpwAdvDiffElemKernel.C", "src/kernel/MomentumMassElemKernel.C", "src/kernel/ContinuityAdvElemKernel.C"]}
{"id": "C90", "title": "A non-conformal interface creates and destroys nothing", "statement": "At a pair of matching Gauss points of a sliding (non-conformal) interface the fluxes assembled on the two sides are opposite: scalar, every momentum component, mass (given equal normal mesh mass flux) and volume; hence the right-hand side of a conservative system over both parts of the mesh sums to zero.", "quantifier": "all elements and orders on both sides, fields, diffusivities, flow rates, options, any number of matched pairs, any conservative interior kernels", "why_tests_cant": "ranges over all interfaces, fields and options", "anchors": ["src/AssembleScalarNonConformalSolverAlgorithm.C", "src/AssembleMomentumNonConformalSolverAlgorithm.C", "src/AssembleContinuityNonConformalSolverAlgorithm.C", "src/ComputeMdotNonConformalAlgorithm.C"]}
{"id": "C91", "title": "A non-conformal interface is invisible to fields both sides agree on", "statement": "If both sides place the Gauss point at the same position, a uniform field crosses as mdot times its value, a linear field has its exact flux, a linear pressure with exact nodal gradients leaves the interpolated mass flux untouched, a linear velocity has the exact viscous stress, a rigid motion none, and the nodal gradient contribution is value times area; penalty and upwinding do not act.", "quantifier": "all element pairs, positions, linear fields, diffusivities", "why_tests_cant": "ranges over all interfaces and linear fields", "anchors": ["src/AssembleScalarNonConformalSolverAlgorithm.C", "src/AssembleMomentumNonConformalSolverAlgorithm.C", "src/ComputeMdotNonConformalAlgorithm.C", "src/AssembleNodalGradNonConformalAlgorithm.C"]}
{"id": "C92", "title": "Non-conformal matrices are the exact derivative of their residuals", "statement": "For each non-conformal assembly the contribution to the matrix, in the columns of both elements, is minus the derivative of the contribution to the right-hand side; the mass flow rate recomputed after the pressure solve agrees with the one the linear system predicted.", "quantifier": "all element pairs, fields, increments, options", "why_tests_cant": "ranges over all fields and increments", "anchors": ["src/AssembleScalarNonConformalSolverAlgorithm.C", "src/AssembleScalarDiffNonConformalSolverAlgorithm.C", "src/AssembleMomentumNonConformalSolverAlgorithm.C", "src/AssembleContinuityNonConformalSolverAlgorithm.C", "src/AssemblePNGNonConformalSolverAlgorithm.C"]}
{"id": "C93", "title": "Upwinding and penalty at a non-conformal interface", "statement": "With upwinding the flux carries the value of the side the flow comes from, without it the mean; the penalty length is the depth of the element behind the face; the flux of a transported scalar dissipates a jump and never feeds it; a pressure excess on one side drives mass to the other.", "quantifier": "all flow rates, fields and element pairs", "why_tests_cant": "ranges over all fields", "anchors": ["src/AssembleScalarNonConformalSolverAlgorithm.C", "src/ComputeMdotNonConformalAlgorithm.C", "src/AssemblePNGNonConformalSolverAlgorithm.C"]}
{"id": "C94", "title": "Every Gauss point of a non-conformal interface is matched with its nearest face or the run stops", "statement": "After the interface search each Gauss point with at least one face found has the nearest of them as opposing face and remembers them all; a point whose face lies within the tolerance is in that face's search box; a point without a face aborts the run.", "quantifier": "all search results, orders in which the sort leaves pairs, ranks, tolerances", "why_tests_cant": "ranges over all meshes, decompositions and search results", "anchors": ["src/NonConformalInfo.C"]}
{"id": "C95", "title": "The dynamic search tolerance finds every point within ten doublings", "statement": "The repeated search succeeds exactly when every point meets some box within ten doublings of its radius, and each point then has exactly the boxes of the first radius that meets any; the distance remembered for the next search reaches some face found.", "quantifier": "all point sets, radii, box configurations", "why_tests_cant": "ranges over all configurations and repeats", "anchors": ["src/NonConformalInfo.C"]}
{"id": "C96", "title": "Ghosting of opposing elements is exact for every history of mesh motion", "statement": "After each search the ghosted elements are exactly those requested by that search, nothing missing and nothing stale, for any history of rounds, and the element behind every candidate face is available on the rank of the Gauss point.", "quantifier": "all numbers of ranks, histories of search results", "why_tests_cant": "ranges over unbounded histories of searches on any number of ranks", "anchors": ["src/NonConformalManager.C", "src/NonConformalInfo.C"]}
{"id": "C97", "title": "The ordinate set integrates the sphere", "statement": "For every quadrature order in three dimensions the ordinate set has 8 N^2 unit directions, none parallel to a coordinate plane, with positive weights that add up to 4 pi, zero first moment, and second moment 4 pi/3 times the identity; all vertex arrays are written within their bounds.", "quantifier": "all quadrature orders N", "why_tests_cant": "the order is unbounded; a test fixes one", "anchors": ["src/pmr/RadiativeTransportEquationSystem.C: create_quadrature_set"]}
{"id": "C98", "title": "Radiation transport is conservative and solved exactly by one linear solve", "statement": "The transport terms of one ordinate move intensity between nodes without creating any, in the edge SUCV, edge upwind and element SUCV schemes, and since the equations are linear one exact solve of the assembled system makes the assembled residual zero.", "quantifier": "all meshes, directions, coefficients, intensities, stabilisation parameters", "why_tests_cant": "ranges over all meshes and fields", "anchors": ["src/pmr/AssembleRadTransEdgeSolverAlgorithm.C", "src/pmr/AssembleRadTransEdgeUpwindSolverAlgorithm.C", "src/pmr/RadTransAdvectionSUCVElemKernel.C", "src/pmr/RadTransAbsorptionBlackBodyElemKernel.C", "src/pmr/RadTransWallElemKernel.C"]}
{"id": "C99", "title": "An isothermal black enclosure is in radiative equilibrium", "statement": "On every closed mesh, at uniform temperature with black walls at the same temperature, the black body intensity is an exact discrete solution of every ordinate, whatever the absorption and scattering coefficients.", "quantifier": "all closed meshes, ordinates, coefficients, both edge schemes and the element scheme", "why_tests_cant": "ranges over all meshes and coefficient fields", "anchors": ["src/pmr/RadiativeTransportEquationSystem.C", "src/pmr/RadTransIsoScatteringNodeSuppAlg.C", "src/pmr/RadTransBlackBodyNodeSuppAlg.C"]}
{"id": "C100", "title": "Upwind intensities are bounded, non-negative and unique", "statement": "A solution of the edge upwind equations lies between the smallest and largest of wall intensity and emission-to-extinction ratio, is never negative for non-negative data, and is unique: the matrix is nonsingular.", "quantifier": "all closed meshes with positive extinction and volumes, all ordinates, emissions, wall intensities", "why_tests_cant": "ranges over all meshes, directions and coefficients", "anchors": ["src/pmr/AssembleRadTransEdgeUpwindSolverAlgorithm.C", "src/pmr/AssembleRadTransWallSolverAlgorithm.C"]}
{"id": "C101", "title": "Radiative energy is balanced between medium and walls", "statement": "After the radiation solve, for any history of iterations, scalar flux, heat flux and irradiation are the moments of the final intensities, and the radiative power taken from the energy equation over the domain equals the net power through the walls, which is irradiation minus wall emission.", "quantifier": "all meshes, ordinate sets with weights adding up to 4 pi, temperature fields, numbers of iterations", "why_tests_cant": "ranges over all meshes, fields and iteration histories", "anchors": ["src/pmr/RadiativeTransportEquationSystem.C: solve_and_update, assemble_fields, assemble_irradiation, compute_div_norm"]}
{"id": "C102", "title": "Radiation couples consistently to the energy and conduction equations", "statement": "The temperature and enthalpy equations take the same radiative power, with the exact derivative in the matrix and never a weaker diagonal; the radiative wall flux of conduction is absorbed minus emitted power and vanishes in equilibrium; the convergence norm of a decomposed run never understates the serial norm.", "quantifier": "all temperatures, coefficients, wall faces, decompositions", "why_tests_cant": "ranges over all states and decompositions", "anchors": ["src/TemperaturePmrSrcNodeSuppAlg.C", "src/EnthalpyPmrSrcNodeSuppAlg.C", "src/AssembleHeatCondIrradWallSolverAlgorithm.C", "src/pmr/RadiativeTransportEquationSystem.C: compute_div_norm"]}
{"id": "C103", "title": "A two-phase state in equilibrium stays in equilibrium", "statement": "With the balanced-force options, if at every integration point the pressure gradient equals weight plus surface tension plus density times a common acceleration, then the area-weighted nodal gradient is that acceleration at every node, the pressure stabilisation vanishes in every volume flow rate, and for a fluid at rest (drop with the Laplace pressure jump, hydrostatic column) neither continuity nor momentum produces a right-hand side and the projection changes no velocity. Across a non-conformal interface this fails: the remaining rate is computed.", "quantifier": "all meshes, density and volume-fraction fields, surface tensions, penalties, time steps", "why_tests_cant": "ranges over all meshes, densities and fields", "anchors": ["src/kernel/ContinuityVofAdvElemKernel.C: execute", "src/AssembleNodalGradPAWElemAlgorithm.C: execute", "src/AssembleNodalGradPAWBoundaryAlgorithm.C: execute", "src/ComputeMdotVofElemAlgorithm.C: execute", "src/AssembleContinuityVofNonConformalSolverAlgorithm.C: execute", "src/LowMachEquationSystem.C: project_nodal_velocity"]}
{"id": "C104", "title": "The balanced-force pressure solve makes volume flow rates divergence free", "statement": "After the pressure correction that solves the assembled two-phase continuity system is added, the recomputed volume flow rates through the surfaces of every control volume cancel with the open and inflow rates, and the total in- and outflow of the domain cancel; the matrix is the exact derivative of the residual and interior contributions conserve volume; stored mass flow rates are density times volume flow rates, and stored open rates are those of the solve when surface tension is not localised (or the face holds the first nodes of the element).", "quantifier": "all meshes, fields, pressures, boundary values, options", "why_tests_cant": "ranges over all meshes and states", "anchors": ["src/kernel/ContinuityVofAdvElemKernel.C: execute", "src/kernel/ContinuityVofOpenElemKernel.C: execute", "src/kernel/ContinuityVofInflowElemKernel.C: execute", "src/ComputeMdotVofElemAlgorithm.C", "src/ComputeMdotVofElemOpenAlgorithm.C", "src/ComputeMdotVofInflowAlgorithm.C"]}
{"id": "C105", "title": "Volume fraction update and smoothing keep bounds and volume", "statement": "The updated volume fraction lies in [-delta, 1+delta], equals the unclipped value when that is in range, is the closest value in range otherwise and depends monotonically on it; any number of smoothing passes conserves the total volume of the phase, keeps uniform fields and commutes with affine changes of the field.", "quantifier": "all values, limits, meshes, numbers of passes", "why_tests_cant": "ranges over all fields and iteration counts", "anchors": ["src/VolumeOfFluidEquationSystem.C: update_and_clip, smooth_vof, smooth_vof_execute"]}
{"id": "C106", "title": "Interface normal and curvature are consistent", "statement": "The computed interface normal never has length above one, is the exact (regularised) unit normal for a planar interface, vanishes in uniform regions and flips when the phases are exchanged; the curvature is minus the divergence of a linear normal field, zero for a planar interface and odd in the normal.", "quantifier": "all meshes with linear-consistent gradients, all volume fraction fields", "why_tests_cant": "ranges over all meshes and fields", "anchors": ["src/VolumeOfFluidEquationSystem.C: compute_interface_normal, compute_interface_curvature"]}
{"id": "C107", "title": "Volume fraction transport and two-phase momentum terms are conservative and consistent", "statement": "Central and upwind advection, stabilisation, capillary stress and the momentum flux of interface compression conserve their quantity; mass, mesh motion, divergence, advection, open boundary, capillary and compression-momentum terms are linearised exactly, upwind advection and compression up to the stated defects; after a solved pressure step a uniform volume fraction gives no residual; stored mass flow is the phase-weighted volume flow; compression does nothing in pure cells; the capillary stress acts in the tangent plane and vanishes for rigid translation.", "quantifier": "all elements, fields, options, meshes", "why_tests_cant": "ranges over all elements and states", "anchors": ["src/kernel/VolumeOfFluidScsAdvElemKernel.C", "src/kernel/VolumeOfFluidScsUpwAdvElemKernel.C", "src/kernel/VolumeOfFluidMassElemKernel.C", "src/kernel/VolumeOfFluidGclElemKernel.C", "src/kernel/VolumeOfFluidDivElemKernel.C", "src/kernel/VolumeOfFluidScvAdvElemKernel.C", "src/kernel/VolumeOfFluidOpenAdvElemKernel.C", "src/kernel/VolumeOfFluidSucvNsoElemKernel.C", "src/kernel/VolumeOfFluidSharpenElemKernel.C", "src/kernel/MomentumVofCapillaryElemKernel.C", "src/kernel/MomentumVofSharpenElemKernel.C"]}
{"id": "C108", "title": "Evaporation transfers mass consistently", "statement": "The evaporation sources of continuity and volume fraction describe the same mass transfer at every node, only remove liquid and expand the mixture if the gas is the lighter phase, do nothing where the volume fraction is 0 or 1, leave the matrix alone, and grow with the square of the model constant; the interface area density they use is the one computed from partial interpolants, which is not zero in a uniform mixture.", "quantifier": "all elements, volume fraction fields, densities, model constants", "why_tests_cant": "ranges over all fields and constants", "anchors": ["src/kernel/VolumeOfFluidEvaporationElemKernel.C: execute", "src/kernel/ContinuityVofEvaporationElemKernel.C: execute"]}
{"id": "C109", "title": "Reported surface force and moment are the integrals over the wall", "statement": "The force and moment written for a set of walls are the sums over all wall points of pressure force, viscous force and moment of the total force about the given centroid, whatever the distribution of faces over ranks and their sequence; moving the centroid adds the moment of the total force with the arm between the centroids; in two dimensions forces stay in the plane; raising the pressure by a constant adds that constant times the area vector (nothing on a closed surface); a rigid rotation of the flow adds nothing; with wall functions the viscous force is minus what the momentum equation receives; nodal pressure forces add up to the reported force.", "quantifier": "all meshes, decompositions, fields, centroids", "why_tests_cant": "ranges over all wall geometries, decompositions and fields", "anchors": ["src/SurfaceForceAndMomentAlgorithm.C: execute", "src/SurfaceForceAndMomentWallFunctionAlgorithm.C: execute", "src/SurfaceForceAndMomentWallFunctionProjectedAlgorithm.C: execute"]}
{"id": "C110", "title": "Wall shear stress and y+ fields", "statement": "At a point the shear stress is the length of the tangential part of the Newtonian wall stress (or of the wall-function force, rho*utau^2 under the law of the wall); at a node visited by one kind of algorithm shear stress and y+ are area-weighted averages of the points there; fields are rebuilt from zero on multiples of the output frequency and untouched otherwise; the reported y+ extremes are attained and bound all points. Where two kinds of algorithm meet the averages are added, and surfaces listed twice double the pressure force.", "quantifier": "all meshes, fields, algorithm lists, steps", "why_tests_cant": "ranges over all surfaces, overlaps and step numbers", "anchors": ["src/SurfaceForceAndMomentAlgorithm.C: execute, pre_work", "src/SurfaceForceAndMomentAlgorithmDriver.C: execute"]}
{"id": "C111", "title": "Transfer search keeps the nearest element for each receiving node", "statement": "After the transfer search each receiving node is mapped to at most one element of the sending mesh: the first of its candidates at the least parametric distance, with the parametric coordinates found in that element; a node is left out exactly if the search failed in all its candidates. The reported maximum distance bounds the distance of every kept pair.", "quantifier": "all candidate lists, search outcomes, node sets", "why_tests_cant": "ranges over all candidate sets and failure patterns", "anchors": ["include/xfer/LinInterp.h: filter_to_nearest"]}
{"id": "C112", "title": "Transferred fields are clipped interpolants", "statement": "Executing a transfer gives each mapped node the interpolant of the sending field in its element, clipped to the user's bounds, changes no other node, does not depend on the sequence of the map and is idempotent; uniform fields arrive as they are, affine fields exactly where the parametric coordinates map to the point (always on tetrahedral meshes), and points inside their element receive no new extrema.", "quantifier": "all maps, fields, clip bounds, meshes", "why_tests_cant": "ranges over all fields, maps and meshes", "anchors": ["include/xfer/LinInterp.h: apply", "src/xfer/Transfer.C: execute"]}
{"id": "C113", "title": "Coupled realms always see the newest data", "statement": "In a run with any realms, solve frequencies, Picard iterations and steps, when a realm is solved every coupling transfer from a realm solved before has been executed since that realm's last solve; within a step an active realm is solved and its transfers executed once per Picard iteration; before the first solve exactly the restarted realms have sent their data.", "quantifier": "all realm lists, frequencies, iteration and step counts", "why_tests_cant": "ranges over all schedules", "anchors": ["src/TimeIntegrator.C: integrate_realm", "src/Realm.C: process_multi_physics_transfer"]}
{"id": "C114", "title": "An overset constraint row ties the node to its donor", "statement": "In the assembled system the equations of an overset constraint node say exactly that its updated value equals the donor element's updated field at the node's parametric point, component by component, whatever the interior and boundary algorithms assembled before and on whichever ranks; the equations of all other nodes are unchanged; the row scaling never vanishes; a field affine in space satisfies the constraint already on a hexahedral donor that locates the node exactly.", "quantifier": "all partitions into ranks, all constraint lists, donors, shape values, previously assembled systems, components, fields", "why_tests_cant": "ranges over all partitions and previously assembled contributions", "anchors": ["src/overset/AssembleOversetSolverConstraintAlgorithm.C: execute, prepare_constraints", "src/TpetraLinearSystem.C: prepareConstraints, sumInto"]}
{"id": "C115", "title": "Overset donors are the nearest candidates on every rank", "statement": "After the donor search a constraint node has as donor the first candidate of least normalised parametric distance with the parametric coordinates found for it; it stays without a donor exactly if no candidate is closer than the initial value; if a candidate contains the node the chosen one contains it; ranks sharing the node choose the same donor. Clipping of coordinates bounds them and leaves inside points alone.", "quantifier": "all coarse search results, search functions, points, ranks", "why_tests_cant": "ranges over all candidate lists and orders", "anchors": ["src/overset/OversetManagerSTK.C: complete_search", "src/overset/OversetInfo.C: OversetInfo"]}
{"id": "C116", "title": "The update of overset constraint nodes interpolates every component and touches nothing else", "statement": "After the update of a field passed with its true sizes every component at every constraint node is the donor's field at the node's point and no other value has changed, in any order of the nodes, if no donor contains a constraint node; a field that already agrees with the donors is unchanged without this condition.", "quantifier": "all fields, sizes (vectors and square tensors), memory layouts, constraint lists and orders", "why_tests_cant": "ranges over all memory layouts and orders", "anchors": ["src/overset/OversetManager.C: overset_constraint_node_field_update", "src/GasDynamicsEquationSystem.C: overset update"]}
{"id": "C117", "title": "Hole cutting removes exactly the intended region", "statement": "The cutting box is the extent of the overset mesh reduced symmetrically by the requested percentage, however the mesh is distributed; with the box shape every background element reaching into the box is cut and every cut element meets the box in every direction, and every inner element is cut; with the oriented shape and a body centroid at the origin exactly the elements whose centroid is the image of an interior point of the model box are cut, for every attitude and displacement.", "quantifier": "all meshes, distributions, percentages, elements, attitudes and displacements", "why_tests_cant": "ranges over all meshes and rigid motions", "anchors": ["src/overset/OversetManagerSTK.C: define_inactive_bounding_box, determine_intersected_elements, get_bbox_points", "include/overset/OversetManagerSTK.h: OrientedBox, OrientedCylinder"]}
{"id": "C118", "title": "Overset node classes are complete, and re-cutting under motion forgets the past", "statement": "No active background element has a node that is excluded from the system: nodes shared by active and cut elements are constraint nodes; every background node is in exactly one of the classes active, constraint, fringe, hidden; after any history of cuts under mesh motion the parts are those of the last cut alone.", "quantifier": "all meshes with two-sided faces, all cuts, all histories of cuts", "why_tests_cant": "ranges over all meshes and histories", "anchors": ["src/overset/OversetManagerSTK.C: initialize, clear_parts, create_exposed_surface_on_inactive_part, create_fringe_info_vec", "src/overset/OversetManager.C: get_inactive_selector"]}
{"id": "C119", "title": "Wall heat transfer data of a fluid are mutually consistent and obey Fourier's law", "statement": "At every wall node the heat transfer coefficient, reference temperature and normal heat flux exported by the fluid satisfy q = h (Tref - T), for the edge and the element scheme and for every distribution of faces over ranks; the edge coefficient is the area average of k over the wall distance, positive and independent of temperature; without non-orthogonal correction the reference temperature lies between the temperatures of the opposing nodes; a temperature affine in space gives q = -k dT/dn (edge scheme: where the edges are normal to the wall; element scheme: always).", "quantifier": "all meshes, temperature and property fields, distributions of faces over ranks", "why_tests_cant": "ranges over all meshes, fields and partitions", "anchors": ["src/ComputeHeatTransferEdgeWallAlgorithm.C: execute", "src/ComputeHeatTransferElemWallAlgorithm.C: execute", "src/AssembleWallHeatTransferAlgorithmDriver.C: pre_work, post_work"]}
{"id": "C120", "title": "Conjugate heat transfer conserves energy across the interface", "statement": "The heat that enters the solid through its wall is counted once, vanishes at equilibrium and flows from hot to cold; its matrix is the exact derivative; when solid and fluid wall temperatures agree the heat entering the solid at a node is the heat leaving the fluid there, for convection coupling (both schemes, matching wall areas) and for Robin coupling whatever the Robin parameter.", "quantifier": "all wall faces, shape functions, boundary data, temperatures", "why_tests_cant": "ranges over all meshes and fields", "anchors": ["src/AssembleHeatCondWallSolverAlgorithm.C: execute", "src/HeatCondEquationSystem.C: register_wall_bc", "src/AssembleWallHeatTransferAlgorithmDriver.C: post_work"]}
{"id": "C121", "title": "The Robin coupling parameter is the impedance of the discrete fluid", "statement": "The Robin parameter exported by the fluid is positive, grows as the time step shrinks, lies between the conductance of the heat capacity and that of capacity plus conduction, and equals the exact ratio of wall heat to wall temperature of one backward Euler step of heat conduction in a uniformly spaced half space; the nodal value is an average of those of its faces.", "quantifier": "all positive density, heat capacity, conductivity, length, time step; all bounded half-space solutions", "why_tests_cant": "ranges over all real parameters and infinitely long discrete solutions", "anchors": ["src/ComputeHeatTransferEdgeWallAlgorithm.C: compute_coupling_parameter", "src/ComputeHeatTransferElemWallAlgorithm.C: compute_coupling_parameter", "src/AssembleWallHeatTransferAlgorithmDriver.C: post_work"]}
{"id": "C122", "title": "Lumped time terms are linearised exactly and start up as backward Euler", "statement": "The matrix added by the lumped scalar and momentum time terms is the exact derivative of their residual for backward Euler and BDF2; on the first step of a second-order run every BDF2 term is the backward Euler term and does not use the old-old state; for heat conduction the backward Euler matrix is exact and BDF2 converges to the right temperature.", "quantifier": "all nodal values, densities, volumes, weights, time steps", "why_tests_cant": "ranges over all real states and weights", "anchors": ["src/ScalarMassBackwardEulerNodeSuppAlg.C: node_execute", "src/ScalarMassBDF2NodeSuppAlg.C: node_execute", "src/MomentumMassBDF2NodeSuppAlg.C: node_execute", "src/ContinuityMassBDF2NodeSuppAlg.C: node_execute", "src/HeatCondMassBDF2NodeSuppAlg.C: node_execute"]}
{"id": "C123", "title": "The time terms account for the stored content over every history of steps", "statement": "Whenever the time term balances the sources on each step, the content of a dual volume changes by the time integral of the sources: exactly for backward Euler with any steps, for the combination 3/2 a_n - 1/2 a_{n-1} for BDF2 with constant steps; without sources the content never changes whatever the step sizes; in every run of the time integrator the BDF2 term is the exact time derivative of contents quadratic in time.", "quantifier": "all histories of steps and step sizes, all sources", "why_tests_cant": "ranges over unbounded histories", "anchors": ["src/ScalarMassBackwardEulerNodeSuppAlg.C: node_execute", "src/ScalarMassBDF2NodeSuppAlg.C: node_execute", "src/TimeIntegrator.C: compute_gamma"]}
{"id": "C124", "title": "Uniform fields stay uniform on moving meshes (edge scheme)", "statement": "With lumped time terms and geometric conservation terms, a scalar uniform in space and time (or a uniform velocity without pressure gradient) has residual minus its value times the node's mass balance; after the pressure correction solves continuity the residual is zero, whatever the mesh velocity divergence, density history and step sizes.", "quantifier": "all meshes, mesh motions, density histories, options", "why_tests_cant": "ranges over all meshes and fields", "anchors": ["src/ScalarGclNodeSuppAlg.C: node_execute", "src/ContinuityGclNodeSuppAlg.C: node_execute", "src/MomentumGclSrcNodeSuppAlg.C: node_execute", "src/AssembleScalarEdgeSolverAlgorithm.C: execute", "src/AssembleContinuityEdgeSolverAlgorithm.C: execute"]}
{"id": "C125", "title": "Nodal forces, work and dissipation obey mechanics", "statement": "Constant body forces total force times volume; buoyancy totals excess mass times gravity and vanishes at the reference density; the Boussinesq force is the buoyancy of the linearised density; the enthalpy's pressure work is exactly the power the pressure gradient takes from momentum; low-speed terms form the material derivative of pressure; viscous work is the dissipation function: never negative in up to three dimensions, blind to rigid rotation.", "quantifier": "all velocity gradients, fields, meshes", "why_tests_cant": "ranges over all real tensors and fields", "anchors": ["src/EnthalpyViscousWorkNodeSuppAlg.C: node_execute", "src/EnthalpyPressureWorkNodeSuppAlg.C: node_execute", "src/EnthalpyLowSpeedCompressibleNodeSuppAlg.C: node_execute", "src/ContinuityLowSpeedCompressibleNodeSuppAlg.C: node_execute", "src/MomentumBodyForceSrcNodeSuppAlg.C", "src/MomentumBuoyancySrcNodeSuppAlg.C", "src/MomentumBoussinesqSrcNodeSuppAlg.C", "src/MomentumActuatorSrcNodeSuppAlg.C"]}
{"id": "C126", "title": "Node sources are applied exactly once per node over all ranks", "statement": "Over all ranks every node in the target parts that is neither a periodic subject nor inactive receives the sum of its supplemental algorithms exactly once, in its own rows; other nodes receive nothing; entries coupling different nodes are untouched; the result does not depend on the partition.", "quantifier": "all partitions of all meshes, all lists of algorithms", "why_tests_cant": "ranges over all partitions", "anchors": ["src/AssembleNodeSolverAlgorithm.C: execute"]}
{"id": "C127", "title": "The pressure is pinned at exactly one node, the nearest one, on any partition", "statement": "With fix_pressure_at_node and a spatial location, all ranks agree on one node and no node of the search parts on any rank is nearer to the location (if the nearest node is unique the choice is the same for every partition, also when some ranks hold no node). After assembly the global row of that node is the identity row with right-hand side refPressure - p, so the solve puts the pressure there to refPressure; every other global row and right-hand side is unchanged; the algorithm runs after every other assembly and boundary condition.", "quantifier": "all node distributions over ranks, all locations, all previously assembled systems, all spreads of shared copies of the row", "why_tests_cant": "ranges over all partitions, locations and assembled systems", "anchors": ["src/FixPressureAtNodeAlgorithm.C: execute, determine_nearest_node, process_pressure_fix_node", "src/SolverAlgorithmDriver.C: execute", "src/LowMachEquationSystem.C: ContinuityEquationSystem::initialize", "src/TpetraLinearSystem.C: resetRows"]}
{"id": "C128", "title": "Open boundary of the edge scheme: tangential stress, normal entrainment", "statement": "At an open face of the edge-based momentum equation the viscous force put on the residual is the tangential part of the viscous force of the face gradient (no normal component, every tangential component exact, independent of include_divu); the face gradient is exact for linear velocity fields. Outflow convects the nodal velocity; inflow convects a velocity whose normal component carries exactly the mass flow rate (relative to the moving face) and whose tangential components are those specified by the user. Only rows of the face node change.", "quantifier": "all faces, orientations, dimensions, velocity fields, options", "why_tests_cant": "ranges over all geometries and fields", "anchors": ["src/AssembleMomentumEdgeOpenSolverAlgorithm.C: execute"]}
{"id": "C129", "title": "Symmetry faces exert no shear", "statement": "At a symmetry face the force put on the momentum residual is along the face normal and its normal component is that of the viscous force, for the edge algorithm and (without include_divu) for the element kernel; only rows of the face node change.", "quantifier": "all faces, orientations, dimensions, velocity fields", "why_tests_cant": "ranges over all geometries and fields", "anchors": ["src/AssembleMomentumEdgeSymmetrySolverAlgorithm.C: execute", "src/kernel/MomentumSymmetryElemKernel.C: execute"]}
{"id": "C130", "title": "Open and symmetry momentum faces assemble the derivative of their residual", "statement": "With mass flow rates fixed, the matrix contributed by open and symmetry faces of the momentum equation is the exact derivative of the residual they contribute.", "quantifier": "all faces, orientations, dimensions, velocity fields and increments", "why_tests_cant": "ranges over all geometries and fields", "anchors": ["src/AssembleMomentumEdgeOpenSolverAlgorithm.C: execute", "src/AssembleMomentumEdgeSymmetrySolverAlgorithm.C: execute", "src/kernel/MomentumSymmetryElemKernel.C: execute"]}
{"id": "C131", "title": "Imposed boundary fluxes integrate exactly; specified pressure is a total pressure for inflow", "statement": "A scalar flux or normal temperature gradient boundary condition adds to the equation the integral of the imposed flux over the faces (uniform flux: flux times area), does not touch the matrix and no node off the boundary. At an open boundary the static pressure used plus the kinetic energy of the entrained normal velocity equals the specified pressure for inflow, and the specified pressure is the static pressure for outflow.", "quantifier": "all boundary meshes, fluxes, mass flow rates", "why_tests_cant": "ranges over all meshes and data", "anchors": ["src/AssembleScalarFluxBCSolverAlgorithm.C: execute", "src/AssembleTemperatureNormalGradientBCSolverAlgorithm.C: execute", "src/ComputeDynamicPressureAlgorithm.C: execute"]}
{"id": "C132", "title": "Every data probe is sampled by exactly one rank", "statement": "For every number of MPI ranks and every deck of lines of sight, planes and rings, each probe is assigned to exactly one rank, the assignment is balanced to within one probe, and on a fresh start the nodes declared by all ranks are the requested ones, each once. At a restart a rank takes a probe exactly when it owns nodes of its part.", "quantifier": "all numbers of ranks, decks, probes, node ids", "why_tests_cant": "ranges over all decompositions and decks", "anchors": ["src/DataProbePostProcessing.C: load", "src/DataProbePostProcessing.C: initialize"]}
{"id": "C133", "title": "Line-of-sight probes are equispaced from tail to tip", "statement": "The nodes of a line of sight lie on the segment from tail to tip at equal spacing, the first at the tail, the last at the tip; a single point sits at the tail; no other node is moved. (When at a restart the nodes of one probe are owned by two ranks, each rank starts again at the tail.)", "quantifier": "all tails, tips, numbers of points, node ids, previous coordinates", "why_tests_cant": "ranges over all geometries", "anchors": ["src/DataProbePostProcessing.C: initialize"]}
{"id": "C134", "title": "Ring probes lie on circles about the axis", "statement": "Node n of a ring probe is the seed point n / number_of_points of the tail-tip line, rotated by n mod number_of_points equal parts of a full turn about the axis through the origin; for a unit axis all points of one ring have the same distance to the origin and lie in one plane normal to the axis; no other node is moved.", "quantifier": "all axes, origins, lines, numbers of points, node ids", "why_tests_cant": "ranges over all geometries and sizes; the placement loops overwrite the later rings several times", "anchors": ["src/DataProbePostProcessing.C: initialize", "src/DataProbePostProcessing.C: compute_R", "src/DataProbePostProcessing.C: mat_vec"]}
{"id": "C135", "title": "Plane probes fill the parallelogram", "statement": "The nodes of a plane probe are the lattice points of the parallelogram spanned by tail, tip one and tip two, with the four corners included, when there are at least two points in the first and three in the second direction. With two points in the second direction the second row is at half the distance instead.", "quantifier": "all tails, tips, numbers of points, node ids", "why_tests_cant": "ranges over all geometries and sizes", "anchors": ["src/DataProbePostProcessing.C: initialize"]}
{"id": "C136", "title": "Probe files: one banner, rows in time order, nothing lost over restarts", "statement": "After any sequence of runs the file of a probe held by one rank consists of one banner followed by one row per node and output step (step number a multiple of the frequency), in time order, each with the time, node id, coordinates and transferred values; existing content is kept.", "quantifier": "all step histories, frequencies, numbers of ranks, sequences of restarts", "why_tests_cant": "ranges over all histories", "anchors": ["src/DataProbePostProcessing.C: execute", "src/DataProbePostProcessing.C: provide_output"]}
{"id": "C137", "title": "Solution norms are the differences to the chosen exact solution over the chosen nodes", "statement": "When norms are requested, every output step appends, for every field/function pair, the largest absolute difference, the mean absolute difference and the root mean square difference between field and function over the nodes of the target parts, each node counted once whatever the partition into ranks; the three are ordered L1 <= L2 <= Loo, vanish together and only when the field agrees with the function at every node. Starting a new run with the same file name discards the rows written before.", "quantifier": "every partition of the nodes into ranks, every field and function, every sequence of output steps and restarts", "why_tests_cant": "The statement ranges over all partitions, field values and restart histories; tests compare a few norm files.", "anchors": ["src/SolutionNormPostProcessing.C: load, execute, analytical_function_factory"]}
{"id": "C138", "title": "The variable-density manufactured source terms close the equations exactly", "statement": "With the manufactured velocity, pressure and mixture fraction, the continuity, mixture fraction and momentum sources the code adds equal, at every point, the left-hand side of the continuity, transport and momentum equations evaluated on that solution (including the viscous stress with or without the divergence part and the buoyancy term), so the manufactured fields solve the equations the user asked for.", "quantifier": "every point where the mixture density is finite and every value of the constants", "why_tests_cant": "The sources are hundreds of generated terms of trigonometric functions; a convergence test checks them at a few nodes with one set of constants and hides errors below the discretisation error.", "anchors": ["src/user_functions/VariableDensityContinuitySrcNodeSuppAlg.C: node_execute", "src/user_functions/VariableDensityMixFracSrcNodeSuppAlg.C: node_execute", "src/user_functions/VariableDensityMomentumSrcNodeSuppAlg.C: node_execute", "src/user_functions/VariableDensityVelocityAuxFunction.C", "src/user_functions/VariableDensityPressureAuxFunction.C", "src/user_functions/VariableDensityMixFracAuxFunction.C"]}
{"id": "C139", "title": "The non-isothermal manufactured source terms close the equations exactly", "statement": "With the manufactured velocity, pressure, enthalpy and ideal-gas density, the continuity, enthalpy and momentum sources equal the corresponding equations evaluated on that solution at every point; the temperature function is the temperature of that enthalpy, and with the constants of the code the density is defined everywhere.", "quantifier": "every point with non-zero temperature and every value of the constants", "why_tests_cant": "Same as C138: the identities hold at every point or the verification study measures the wrong error.", "anchors": ["src/user_functions/VariableDensityNonIsoContinuitySrcNodeSuppAlg.C: node_execute", "src/user_functions/VariableDensityNonIsoEnthalpySrcNodeSuppAlg.C: node_execute", "src/user_functions/VariableDensityNonIsoMomentumSrcNodeSuppAlg.C: node_execute", "src/user_functions/VariableDensityNonIsoTemperatureAuxFunction.C"]}
{"id": "C140", "title": "The steady Taylor vortex, conduction and Boussinesq cases are manufactured solutions", "statement": "The steady Taylor vortex is divergence free, its momentum source is what the momentum equation leaves over and its continuity source is the divergence of its mass flux; the conduction sources are minus the Laplacian of the temperature functions; the Boussinesq velocity is divergence free, its enthalpy source is the advection of the enthalpy, and its momentum source plus the Boussinesq buoyancy source at the exact temperature is the momentum equation; every gradient function is the gradient of its function.", "quantifier": "every point and every value of the constants (with the amplitude relations the code satisfies)", "why_tests_cant": "Pointwise identities between functions; tests sample nodes.", "anchors": ["src/user_functions/SteadyTaylorVortexMomentumSrcElemKernel.C: execute", "src/user_functions/SteadyTaylorVortexContinuitySrcElemKernel.C: execute", "src/user_functions/SteadyThermalContactSrcNodeSuppAlg.C", "src/user_functions/SteadyThermal3dContactSrcElemKernel.C", "src/user_functions/SteadyThermal3dContactDtDxAuxFunction.C", "src/user_functions/BoussinesqNonIsoMomentumSrcNodeSuppAlg.C: node_execute", "src/user_functions/BoussinesqNonIsoEnthalpySrcNodeSuppAlg.C"]}
{"id": "C141", "title": "The exact flows offered as user functions solve the Navier-Stokes equations", "statement": "The convecting Taylor vortex, Kovasznay flow and (for viscosity above its threshold) the wind-energy Taylor vortex are divergence free and satisfy the Navier-Stokes equations at every point and time with the pressure or pressure gradient the code offers for them, and the offered pressure gradients are gradients of the offered pressures. Below the viscosity threshold the wind-energy vortex is not a number anywhere.", "quantifier": "every point, every time, every translation velocity, viscosity, Reynolds number and vortex parameter", "why_tests_cant": "An identity between functions over all of space and time and all parameters.", "anchors": ["src/user_functions/ConvectingTaylorVortexVelocityAuxFunction.C", "src/user_functions/ConvectingTaylorVortexPressureAuxFunction.C", "src/user_functions/KovasznayVelocityAuxFunction.C", "src/user_functions/KovasznayPressureAuxFunction.C", "src/user_functions/WindEnergyTaylorVortexAuxFunction.C: do_evaluate", "src/user_functions/WindEnergyTaylorVortexPressureAuxFunction.C: do_evaluate"]}
{"id": "C142", "title": "The Taylor-Green initial state is consistent with incompressible flow", "statement": "The initial Taylor-Green velocity is divergence free and the initial pressure satisfies the pressure Poisson equation of that velocity at every point.", "quantifier": "every point, amplitude, density, background pressure and length scale", "why_tests_cant": "An identity between functions at every point.", "anchors": ["src/user_functions/TaylorGreenVelocityAuxFunction.C", "src/user_functions/TaylorGreenPressureAuxFunction.C"]}
{"id": "C143", "title": "The finite-element kernels assemble the Galerkin weak forms", "statement": "On one element the residual a finite-element kernel adds, tested with any nodal test function w, is the quadrature of the documented weak form: minus mu grad w . grad q for diffusion, (rho u . grad w) q for advection, minus w d(rho q)/dt for accumulation, minus w rho cp dT/dt for heat capacity, mass flux . grad w over the projection time scale for continuity, the integrated-by-parts projected gradient, momentum accumulation with pressure gradient, momentum advection with the same stabilized mass flux, and w . f for a body force; and the matrix it adds is the corresponding bilinear form.", "quantifier": "every element geometry, quadrature rule, shape functions, number of nodes and dimensions, every nodal field, test function, trial function and prior content of the local system", "why_tests_cant": "A bilinear identity over all fields and geometries; tests evaluate a few elements.", "anchors": ["src/kernel/ScalarDiffFemKernel.C: execute", "src/kernel/ScalarAdvFemKernel.C: execute", "src/kernel/ScalarMassFemKernel.C: execute", "src/kernel/HeatCondMassFemKernel.C: execute", "src/kernel/ScalarPngFemKernel.C: execute", "src/kernel/ContinuityAdvFemKernel.C: execute", "src/kernel/MomentumMassFemKernel.C: execute", "src/kernel/MomentumAdvFemKernel.C: execute", "src/kernel/MomentumBodyForceFemKernel.C: execute"]}
{"id": "C144", "title": "The finite-element matrices are the exact Newton matrices of their residuals", "statement": "For every finite-element kernel that is linear in its unknown with the other fields held, taking a full step d changes the kernel's residual by exactly minus its matrix applied to d: diffusion, advection, accumulation, heat capacity, continuity in the pressure, projected gradient, momentum accumulation, momentum advection, momentum diffusion with the explicit dilatation off, and the open-boundary and flux-penalty kernels.", "quantifier": "every element or face geometry, every state, every increment, every prior local system", "why_tests_cant": "Exactness of a linearization is over all increments and states.", "anchors": ["src/kernel/*FemKernel.C: execute"]}
{"id": "C145", "title": "Finite-element diffusion and mass matrices are symmetric and positive", "statement": "The diffusion matrix is symmetric; for non-negative viscosity at the integration points and positive volume factors it is positive semidefinite; for positive viscosity it annihilates exactly the fields with no gradient at any integration point; the accumulation matrix is symmetric and positive semidefinite for non-negative density.", "quantifier": "every element, every nodal coefficient field and every pair of nodal vectors", "why_tests_cant": "Definiteness ranges over all vectors and geometries.", "anchors": ["src/kernel/ScalarDiffFemKernel.C: execute", "src/kernel/ScalarMassFemKernel.C: execute"]}
{"id": "C146", "title": "Finite-element interior kernels are conservative", "statement": "With shape functions that sum to one (so that their gradients sum to zero), diffusion, advection, the continuity equation and momentum advection add nothing to the sum over the rows of an element; accumulation adds minus the rate of change of the element's content, and a body force adds force times volume.", "quantifier": "every element geometry, field and prior local system", "why_tests_cant": "Conservation is an identity over all fields.", "anchors": ["src/kernel/ScalarDiffFemKernel.C: execute", "src/kernel/ScalarAdvFemKernel.C: execute", "src/kernel/ContinuityAdvFemKernel.C: execute", "src/kernel/MomentumAdvFemKernel.C: execute", "src/kernel/ScalarMassFemKernel.C: execute", "src/kernel/MomentumBodyForceFemKernel.C: execute"]}
{"id": "C147", "title": "Finite-element boundary kernels apply the documented fluxes, and an affine field is reproduced", "statement": "An open continuity face removes the stabilized and penalized mass flux tested with the face shape functions, in total exactly the mass leaving; an inflow face applies the specified mass flux; an open scalar face upwinds: an outgoing flux carries the interior value, an incoming one the specified value; a flux-penalty face applies the diffusive flux plus a penalty that vanishes when the solution equals the specified value. On any mesh satisfying the discrete divergence theorem, an affine field with matching boundary values has zero assembled residual for diffusion with penalty boundaries.", "quantifier": "every face geometry, field, mass flux, penalty factor, test function; for the patch test every mesh satisfying the discrete divergence theorem", "why_tests_cant": "Identities over all fields and meshes.", "anchors": ["src/kernel/ContinuityOpenFemKernel.C: execute", "src/kernel/ContinuityInflowFemKernel.C: execute", "src/kernel/ScalarOpenAdvFemKernel.C: execute", "src/kernel/ScalarFluxPenaltyFemKernel.C: execute"]}
{"id": "C148", "title": "The finite-element viscous stress is the Newtonian stress", "statement": "The momentum diffusion kernel assembles minus the quadrature of grad w contracted with mu (grad u + grad u^T) - 2/3 mu (div u) I (the last part when the dilatational option is on); rigid motions produce no force; the matrix is symmetric and dissipative; forces are internal; an open momentum face advects the selected velocity and applies the tangential traction, and an incoming flux is given the entrained velocity whose normal component carries the mass flux.", "quantifier": "every element and face, velocity and viscosity field, test function", "why_tests_cant": "Identities over all velocity fields and geometries.", "anchors": ["src/kernel/MomentumDiffFemKernel.C: execute", "src/kernel/MomentumOpenAdvDiffFemKernel.C: execute"]}
{"id": "C149", "title": "The finite-element projected nodal gradient is the L2 projection of the gradient", "statement": "Volume and boundary parts of the projected-gradient assembly add up, on every mesh where integration by parts holds, to the L2 projection of the element gradient: the assembled residual vanishes against every test function exactly when the projected field and the element gradient have the same integral against it, and the gradient of an affine field is reproduced exactly.", "quantifier": "every mesh, scalar field, test function", "why_tests_cant": "An orthogonality relation over all test functions and meshes.", "anchors": ["src/kernel/ScalarPngFemKernel.C: execute", "src/kernel/ScalarPngBcFemKernel.C: execute"]}
{"id": "C150", "title": "The finite-element master elements interpolate and differentiate consistently", "statement": "The shape functions of the finite-element hexahedron, ten-node tetrahedron and six-node triangle sum to one, are nodal, reproduce affine (hexahedron) or all quadratic (simplices) functions, and the derivative arrays are their partial derivatives; the gradients given to kernels annihilate constants and differentiate the coordinates exactly wherever the Jacobian is not zero. Shifted evaluation is nodal on the hexahedron; on the tetrahedron the shifted points are never set and every shifted point is node 0.", "quantifier": "every parametric point, every element geometry with non-zero Jacobian, every field", "why_tests_cant": "Identities of polynomials at all points and geometries.", "anchors": ["src/master_element/Hex8FEM.C: hex8_fem_shape_fcn, hex8_fem_derivative, grad_op_fem", "src/master_element/Tet10FEM.C: tet10_fem_shape_fcn, tet10_deriv, tet10_derivative, grad_op_fem", "src/master_element/Tri6FEM.C: tri6_shape_fcn, tri6_derivative", "include/master_element/MasterElementFunctions.h: generic_grad_op_fem"]}
{"id": "C151", "title": "The finite-element quadrature rules have the documented accuracy", "statement": "The hexahedron's rule integrates every polynomial of degree at most three in each variable exactly, hence the volume and the integral of each shape function on every hexahedron however distorted, and the mass matrix on parallelepipeds; the tetrahedron's rule integrates every polynomial of total degree four, and the triangle's every polynomial of total degree five, to within a rounding-size multiple of its coefficients; all points are interior and weights positive.", "quantifier": "every polynomial of the stated degree, every hexahedron", "why_tests_cant": "Exactness is for all polynomials and geometries.", "anchors": ["src/master_element/Hex8FEM.C: Hex8FEM", "src/master_element/Tet10FEM.C: Tet10FEM", "src/master_element/Tri6FEM.C: Tri6FEM"]}
{"id": "C152", "title": "Faces of the ten-node tetrahedron match the six-node triangle", "statement": "On every side, the element interpolation at the image of a face point is the face interpolation of the values at that side's nodes, and nodes off the side do not contribute; the face's area vector is the image of the outward reference normal (so it points outward on every valid, possibly curved, element); its normal has unit length, is orthogonal to the tangents, and normal times determinant is the area vector. Asking for a fifth side is an error.", "quantifier": "every side, face point, curved geometry and field", "why_tests_cant": "An identity over all points, fields and curved geometries.", "anchors": ["src/master_element/Tet10FEM.C: side_node_ordinals, sidePcoords_to_elemPcoords", "src/master_element/Tri6FEM.C: normal_fem, determinant_fem"]}
{"id": "C153", "title": "Table lookups find the right knot span", "statement": "For an interpolation order of at least one and more data points than the order, the knot vector built from the scaled sites has n+p+1 entries, starts with p+1 zeros, ends with p+1 ones, increases strictly in between and its interior knots are the averages of p consecutive sites (none is discarded as a duplicate). For every argument the bisection search terminates; inside the table it returns the only span that contains the argument, at or below the first end the first span, at or above the last end the last one, and all p+1 control points of the span exist. With no more points than the order, or with order zero, the search uses entries that do not exist.", "quantifier": "every strictly increasing list of sites, every order, every argument", "why_tests_cant": "termination of the bisection and validity of the indices must hold for every spacing of the sites and every argument", "anchors": ["src/tabular_props/BSpline.C: find_indx, get_uk, set_uk, set_knot_vector"]}
{"id": "C154", "title": "The basis functions are the B-spline basis", "statement": "The values computed for a span are the p+1 B-spline basis functions (Cox-de Boor) that are not zero there, whatever the scratch array contained; they add up to one, are not negative inside the span, satisfy Marsden's identity, and with suitable control points, the same in all spans, reproduce every polynomial of degree at most p.", "quantifier": "every clamped knot vector, order, span and argument; every previous content of the scratch array; every polynomial of degree at most the order", "why_tests_cant": "the in-place triangular recursion has to be right for every order and knot spacing; the self test in the code covers one quadratic knot vector and is disabled", "anchors": ["src/tabular_props/BSpline.C: basis_funs"]}
{"id": "C155", "title": "The dense solver of the property tables solves its system", "statement": "Unless a pivot vanishes the decomposition stores a unit lower and an upper triangular factor whose product is the matrix, the two substitutions return the solution of the system, and it is the only one. Success depends on the matrix only. There is no pivoting: some invertible matrices are refused.", "quantifier": "every size, matrix and right hand side", "why_tests_cant": "the in-place elimination must be right for every size and matrix", "anchors": ["src/tabular_props/LU.C: LU::decompose, LU::back_subs"]}
{"id": "C156", "title": "One-dimensional tables interpolate their data", "statement": "A table returns at every data point the value given there, for data listed in increasing or decreasing order, with or without clipping. Data of a polynomial of degree at most the order (in particular constants) are reproduced at every argument, and at the clipped argument when clipping is on. With clipping, arguments outside the data give the value at the nearest end. Inside the data range a lookup stays between the smallest and the largest control point. Tables depend linearly on the data, not on the direction of listing, and whether a table can be built depends on the sites only. Tables of order one can always be built and are piecewise linear.", "quantifier": "every list of data points, order below the number of points, argument and scratch content", "why_tests_cant": "correctness is needed at every argument of every table; the tests look up a few", "anchors": ["src/tabular_props/BSpline.C: BSpline1D::BSpline1D, BSpline1D::compute_control_pts, BSpline1D::value"]}
{"id": "C157", "title": "Tables accept exactly monotone data", "statement": "Data for a table are accepted exactly when the independent variable increases strictly or decreases strictly; increasing data are used as they are, decreasing data are reversed in both variables, so that each value stays with its site; all other data raise an exception.", "quantifier": "every list of sites and values", "why_tests_cant": "must hold for every input list", "anchors": ["src/tabular_props/BSpline.C: BSpline1D::sort_inputs"]}
{"id": "C158", "title": "Multi-dimensional tables interpolate and lookups do not disturb each other", "statement": "A table of two or more dimensions returns at every grid point the value given there, the first index running fastest in the data. Although a lookup overwrites control points inside the table, after any sequence of lookups every further lookup returns what it would have returned on the fresh table.", "quantifier": "every number of dimensions, grid, data, order, and sequence of lookups", "why_tests_cant": "lookups mutate shared state, so independence of the history is a statement about all sequences", "anchors": ["src/tabular_props/BSpline.C: BSpline2D, BSpline3D, BSpline4D, BSpline5D: compute_control_pts, value"]}
{"id": "C159", "title": "2x2 symmetric eigen-decomposition is exact", "statement": "For every symmetric 2x2 matrix sym_diagonalize returns a diagonal D and an orthogonal Q with A = Q D Q^T; the columns of Q are unit eigenvectors with the eigenvalues on the diagonal of D (in decreasing order unless A was already diagonal, in which case Q is the identity), and reconstruct_matrix_from_decomposition applied to the result returns A. Scalar and SIMD overload compute the same.", "quantifier": "all symmetric 2x2 real matrices", "why_tests_cant": "The branch on a vanishing off-diagonal entry, repeated eigenvalues and the normalisation must work for every matrix; tests try a few.", "anchors": ["src/EigenDecomposition.C:sym_diagonalize", "src/EigenDecomposition.C:reconstruct_matrix_from_decomposition", "src/EigenDecomposition.C:matrix_matrix_multiply"]}
{"id": "C160", "title": "3x3 symmetric eigen-decomposition is an exact orthogonal similarity", "statement": "For every symmetric 3x3 matrix, and whatever the output arrays held, sym_diagonalize returns a rotation Q and D with A = Q D Q^T, D diagonal; trace, determinant and Frobenius norm are preserved, reconstruction returns A, SIMD lanes do not influence each other and agree with the scalar routine.", "quantifier": "all symmetric 3x3 real matrices, any number of SIMD lanes and any contents of the other lanes, any previous content of the outputs", "why_tests_cant": "The iteration has data-dependent pivots, three exits and an iteration limit; tests cannot cover all pivot sequences or all lane combinations.", "anchors": ["src/EigenDecomposition.C:sym_diagonalize"]}
{"id": "C161", "title": "Perturbed Reynolds stresses are realizable and carry the right kinetic energy", "statement": "The eigenvalue perturbation sorts the eigenvalues from high to low, moves each the user's fraction delta towards the chosen limiting state (one, two or three components) and leaves everything else; the trace of the perturbed stress is twice the perturbed turbulence energy; for delta in [0,1] a realizable stress stays realizable (up to the residue of the decomposition, exactly if it converged); delta = 1 gives the limiting state for any velocity gradient; delta = 0 gives exactly the Boussinesq stress.", "quantifier": "all velocity gradients, viscosities, energies, delta in [0,1], limiting states, ties between eigenvalues", "why_tests_cant": "Realizability is an inequality over all directions and all velocity gradients, and sorting must work for every order and tie.", "anchors": ["src/AssembleScalarEigenEdgeSolverAlgorithm.C:sort", "src/AssembleScalarEigenEdgeSolverAlgorithm.C:perturb", "src/AssembleScalarEigenEdgeSolverAlgorithm.C:execute"]}
{"id": "C162", "title": "The perturbed heat flux is conservative, orientation independent, linearised exactly and dissipative", "statement": "With eigenvalue perturbation on, the enthalpy edge assembly conserves energy over any set of edges, does not depend on the orientation of an edge or on the edges processed before, assembles the exact derivative of its residual, gives the laminar plus generalised-gradient flux exactly for linear fields, keeps a uniform field uniform and, for a realizable stress, has a positive semi-definite diffusion matrix with non-positive off-diagonal entries.", "quantifier": "all meshes, edges, nodal fields, advection options and perturbation parameters (three dimensions, non-vanishing strain rate)", "why_tests_cant": "These are identities and inequalities over all meshes, fields and processing orders.", "anchors": ["src/AssembleScalarEigenEdgeSolverAlgorithm.C:execute", "src/EnthalpyEquationSystem.C:register_interior_algorithm"]}
{"id": "C163", "title": "Actuator line points are complete, evenly spaced and move rigidly", "statement": "For every number of ranks each actuator line is owned by one rank and the points of all ranks together are the points of all lines, each once, with distinct ids and whatever earlier steps did; the points divide the line evenly from tail to tip; at every time they are the image of the input line under one rotation about the first axis through its centre, so distances never drift, and a line with zero angular speed stays put.", "quantifier": "every deck of lines, number of ranks, time, id counter (history of earlier steps), point pair", "why_tests_cant": "Rank counts, times and line lengths are unbounded; drift would only show after long runs.", "anchors": ["src/ActuatorLinePointDrag.C: load, create_actuator_line_point_info_map, set_current_coordinates"]}
{"id": "C164", "title": "The velocity given to an actuator point is the velocity of the point", "statement": "The velocity used for the drag of a moving actuator point is the time derivative of the position the same step gives it. (False of the code: it has the right magnitude and is perpendicular to axis and arm, but is minus the derivative for every turning line; in two dimensions the line shrinks instead of turning.)", "quantifier": "every line, angular speed, point and time", "why_tests_cant": "The relation is between two functions of continuous time; a sample of times cannot establish a derivative.", "anchors": ["src/ActuatorLinePointDrag.C: set_current_coordinates, set_current_velocity"]}
{"id": "C165", "title": "The force of an actuator point is the drag of a sphere", "statement": "The point force equals the Schiller-Naumann sphere drag along the slip velocity in both Reynolds number regimes, the friction factor is continuous (also at Re=1000), monotone and never below Stokes; the force is Galilean invariant, takes power from the slip whenever there is slip, and the matrix coefficient is the same positive multiple.", "quantifier": "every radius, viscosity, density > 0 and every pair of velocities in any dimension", "why_tests_cant": "Continuity and sign must hold for all real Reynolds numbers and directions.", "anchors": ["src/ActuatorLinePointDrag.C: compute_point_drag"]}
{"id": "C166", "title": "Spreading delivers the whole force of every point", "statement": "The nodal source is the superposition over all points of the point force times a Gaussian of the requested decay radius that integrates to one, independent of how points are distributed over ranks. (False of the code: the exponent ignores the decay radius, so the weight integrates to one only for radius one, and a node reached by several points of one rank keeps the last one's load only, while loads from different ranks add.)", "quantifier": "every decay radius, dimension 2 and 3, every set of points, node sets and distribution over ranks", "why_tests_cant": "An integral over space and all overlaps of search spheres and rank distributions.", "anchors": ["src/ActuatorLinePointDrag.C: compute_node_drag_given_radius, spread_actuator_force_to_node_vec, execute"]}
{"id": "C167", "title": "Actuator search takes the nearest element and the implicit part is conserved", "statement": "Each point interpolates the gas from the nearest of the elements its sphere met (first in sorted order on ties), reaches exactly their nodes, has no best element exactly when it met none; in a uniform gas the force is the drag law at that gas; and the coefficients assembled for the matrix add up to the sum of the drag coefficients of all points for every distribution over ranks and every overlap.", "quantifier": "every list of search hits, every set of points, ranks, meshes and fields", "why_tests_cant": "All search results, ties and partitions.", "anchors": ["src/ActuatorLinePointDrag.C: complete_search, assemble_lhs_to_best_elem_nodes, compute_volume, execute"]}
{"id": "C168", "title": "Actuator momentum sources integrate the source and keep the matrix diagonal", "statement": "The coefficient field is isotropic and nonnegative; the element kernel adds to each element exactly the integral of the source over its sub-control volumes (source times volume if uniform) and changes only diagonal entries, each by its nodal coefficient times the volume around the node.", "quantifier": "every element, source field, set of points and starting arrays", "why_tests_cant": "All elements, fields and accumulated arrays.", "anchors": ["src/kernel/MomentumActuatorSrcElemKernel.C: execute", "src/MomentumActuatorSrcNodeSuppAlg.C", "src/ActuatorLinePointDrag.C: execute"]}
{"id": "C169", "title": "Elastic mesh deformation solves linear elasticity", "statement": "With the elastic kernel, the residual at every node and in every direction is the net traction of the linear elastic stress mu(H+H^T)+lambda tr(H) I of the interpolated displacement over the sub-control surfaces around the node; an element exerts no net force on itself; the matrix is the exact derivative of the residual; affinely displaced meshes carry the constant stress of their strain on any element shape, and translations and infinitesimal rotations meet no resistance.", "quantifier": "all elements, moduli, displacements, prior contents of the local arrays", "why_tests_cant": "holds for every element geometry, modulus field and displacement, not the few that a unit test assembles", "anchors": ["src/kernel/MeshDisplacementElasticElemKernel.C: MeshDisplacementElasticElemKernel::execute"]}
{"id": "C170", "title": "Inertia of the deforming mesh is density times acceleration", "statement": "The inertia contribution is minus density times the acceleration of the displacement, exact for motions quadratic in time for any pair of step sizes, zero for uniform motion, with a matrix that is the exact derivative, and nothing lost in total.", "quantifier": "all elements, densities, step sizes, motions polynomial in time of degree at most two", "why_tests_cant": "the factor that the difference weights get wrong depends on the ratio of the two steps, any values", "anchors": ["src/kernel/MeshDisplacementMassElemKernel.C: setup, execute"]}
{"id": "C171", "title": "Neo-Hookean mesh deformation follows its constitutive law", "statement": "With the simplified neo-Hookean kernel, the residual is the net traction of the Cauchy stress of the stable neo-Hookean solid; no net force on the element; a rigidly moved (translated or rotated) mesh carries no stress, in two and three dimensions.", "quantifier": "all elements, moduli, displacements with invertible deformation gradient", "why_tests_cant": "finite deformation law, for every deformation gradient", "anchors": ["src/kernel/MeshDisplacementSimplifiedNeohookeanElemKernel.C: execute"]}
{"id": "C172", "title": "The mesh solver uses the Lame constants the user gave", "statement": "The field lame_mu holds the constant specified as lame_mu and lame_lambda the one specified as lame_lambda, and so does the density; so the elastic residual is that of the material in the input deck.", "quantifier": "all values of the constants, all elements and displacements", "why_tests_cant": "a test that gives both constants the same value (as the regression deck may) does not see the exchange", "anchors": ["src/mesh_motion/MeshDisplacementEquationSystem.C: register_nodal_fields", "src/Realm.C: setup_property"]}
{"id": "C173", "title": "Mesh geometry and velocity follow the displacement", "statement": "After every iteration of the mesh solve, whatever the linear solver returned, the current coordinates are the model coordinates plus the displacement, the displacement is the predicted one plus the sum of all increments, and the mesh velocity is the backward difference of the displacements - the exact derivative for quadratic motions in every second-order run with any step history, zero for a mesh at rest; the divergence is the trace of the velocity gradient.", "quantifier": "all solver answers, iteration counts, step-size histories, displacements", "why_tests_cant": "histories of iterations and steps of any length and solver answers of any value", "anchors": ["src/mesh_motion/MeshDisplacementEquationSystem.C: predict_state, solve_and_update, compute_current_coordinates, compute_div_mesh_velocity"]}
{"id": "C174", "title": "Pressure loads on the mesh boundary", "statement": "A face of a pressure-loaded boundary adds exactly minus the interpolated pressure times its area vectors to the nodes of the face, nothing to other nodes and nothing to the matrix; a uniform pressure gives -p times the area vector of the face, and no net force on a closed surface.", "quantifier": "all faces, pressures, area vectors, closed collections of faces", "why_tests_cant": "closure over arbitrary many faces of arbitrary shape", "anchors": ["src/mesh_motion/AssemblePressureForceBCSolverAlgorithm.C: execute"]}
{"id": "C175", "title": "Scalar nonlinear stabilization only adds bounded, conservative dissipation", "statement": "Requesting NSO_2ND, NSO_4TH (with or without _ALT, _KE) for a scalar adds to each element the flux -nu A.g(grad q - gamma Gq) through every sub-control surface, conservatively. The viscosity lies between zero and Cupw times the first-order upwind value, never exceeds what the residual asks for, equals one of the two, and is zero when the residual is. The linearized residual vanishes for constant scalars and for uniform mass flux, the PDE residual of a constant is q times the continuity residual. Constants, and in the fourth-order form affine fields with exact nodal gradients, receive no flux. The matrix is that of the flux with frozen viscosity.", "quantifier": "every element geometry and metric, every field history, density, velocity, time-integration coefficients, every option value with Cupw >= 0 and small > 0", "why_tests_cant": "The viscosity is a nonlinear function of all nodal values of the element; tests compare one or two fixed elements against recorded numbers.", "anchors": ["src/nso/ScalarNSOElemKernel.C: ScalarNSOElemKernel::execute", "src/nso/ScalarNSOKeElemKernel.C: ScalarNSOKeElemKernel::execute"]}
{"id": "C176", "title": "Momentum nonlinear stabilization acts per component and is off for smooth flow", "statement": "NSO_2ND/4TH, _ALT, _KE and _GRAD for momentum move, for each component, the flux -nu_k A.g(grad u_k - gamma G u_k), conserve each component and couple none. Uniform velocities (and affine ones with exact nodal gradients in the fourth-order forms) are not touched; where the pressure gradient equals the interpolated nodal one the pressure-based operators add nothing at all; in a uniform steady stream with uniform pressure the residual is velocity times continuity residual.", "quantifier": "every element, metric, velocity/density/pressure history and option", "why_tests_cant": "as C175", "anchors": ["src/nso/MomentumNSOElemKernel.C: execute", "src/nso/MomentumNSOKeElemKernel.C: execute", "src/nso/MomentumNSOGradElemSuppAlg.C: elem_execute"]}
{"id": "C177", "title": "Stress form of the momentum stabilization", "statement": "NSO_2ND_SIJ moves the flux of -nu g o (grad u + grad u^T - 2/3 div(u) I), conserves momentum, and does not act on rigid motions; a uniform expansion in three dimensions produces no deviatoric stress.", "quantifier": "every element, metric and velocity, with and without the divU term", "why_tests_cant": "The kernel is only exercised with include_divU off, and only against recorded numbers.", "anchors": ["src/nso/MomentumNSOSijElemKernel.C: execute"]}
{"id": "C178", "title": "Finite element stabilization is a symmetric dissipation", "statement": "NSO_2ND_ALT of the finite element scalar equation adds a symmetric positive semidefinite matrix that annihilates constants, its residual is minus this matrix times the field, and its viscosity obeys the bounds of C175; where the mass flux is uniform it adds nothing.", "quantifier": "every finite element, metric, field and flow", "why_tests_cant": "as C175", "anchors": ["src/nso/ScalarNSOFemKernel.C: execute"]}
{"id": "C179", "title": "The metric tensors are positive semidefinite and inverse to each other", "statement": "gij returns g^ij = J J^T and g_ij its inverse for every element with Jacobian determinant above the clip, both symmetric and positive semidefinite for every element; the vectorized version gives every lane of a SIMD pack the value of the scalar routine.", "quantifier": "every Jacobian matrix, every pack of elements", "why_tests_cant": "All coordinates; and the vectorized clip depends on which elements share a pack, which tests do not vary.", "anchors": ["src/master_element/MasterElementWork.F: twod_gij, threed_gij", "src/master_element/Quad42DCVFEM.C: Quad42DSCS::gij"]}
{"id": "C180", "title": "SST source terms of the element scheme integrate the model equations", "statement": "For every element, shape functions, gradient operator and nodal state, the element kernels for turbulent kinetic energy (SST and detached-eddy) and for the specific dissipation rate add to the row of each node the sum over its sub-control volumes of limited production minus destruction (plus cross diffusion), evaluated from interpolated values, and to the matrix the stated implicit coefficient times the shape functions; production is never negative and at most the given multiple of destruction.", "quantifier": "all element types (any number of nodes, points, dimensions), all shape functions, volumes, gradients, nodal fields and model constants", "why_tests_cant": "regression tests fix one mesh and one flow; the limiter and DES switch branches depend on the state", "anchors": ["src/kernel/TurbKineticEnergySSTSrcElemKernel.C:execute", "src/kernel/TurbKineticEnergySSTDESSrcElemKernel.C:execute", "src/kernel/SpecificDissipationRateSSTSrcElemKernel.C:execute"]}
{"id": "C181", "title": "k-epsilon source terms of the element scheme integrate the model equations", "statement": "For every element and nodal state the k-epsilon kernels integrate min(max(0, tau:grad u), ratio rho eps) - rho eps for the kinetic energy and (eps/k)(C1 P - C2 rho eps) for the dissipation, tau being the full turbulent stress including the isotropic part when the dilatation is included, and 2 mu_t S:S when it is not.", "quantifier": "all element types, shape functions, volumes, gradients, nodal fields and model constants", "why_tests_cant": "tests evaluate single states; the clip at zero and the limiter are state dependent", "anchors": ["src/kernel/TurbKineticEnergyKEpsilonSrcElemKernel.C:execute", "src/kernel/TurbDissipationKEpsilonSrcElemKernel.C:execute"]}
{"id": "C182", "title": "Subgrid kinetic energy source terms of the element scheme", "statement": "For every element and nodal state in two or three dimensions the lumped and the consistent kernels integrate limited production minus C_eps rho k^{3/2}/V^{1/d} (plus the low-Reynolds term 2 mu |grad sqrt k|^2), with the derivative of the destruction in the matrix.", "quantifier": "all element types, shape functions, volumes, nodal fields with non-negative kinetic energy and volume (lumped) or any sign (consistent, clipped)", "why_tests_cant": "dimension-dependent branch and clipping must hold for every state", "anchors": ["src/kernel/TurbKineticEnergyKsgsSrcElemKernel.C:execute", "src/kernel/TurbKineticEnergyKsgsDesignOrderSrcElemKernel.C:execute"]}
{"id": "C183", "title": "Lumped turbulence sources cannot drive k, epsilon or omega negative", "statement": "With lumped shape functions, on every mesh (elements sharing nodes in any way, assembled in any order) the system made of the turbulence source kernels has a diagonal matrix with non-negative entries, and solving it together with any non-negative inertia from non-negative nodal values yields non-negative values (for omega as long as negative cross diffusion does not exceed the destruction).", "quantifier": "all meshes, element orders, nodal states in the physical range, inertias", "why_tests_cant": "positivity is a statement about every state and every mesh; a run only shows the states it visits", "anchors": ["src/kernel/TurbKineticEnergySSTSrcElemKernel.C", "src/kernel/TurbKineticEnergySSTDESSrcElemKernel.C", "src/kernel/TurbKineticEnergyKEpsilonSrcElemKernel.C", "src/kernel/TurbDissipationKEpsilonSrcElemKernel.C", "src/kernel/SpecificDissipationRateSSTSrcElemKernel.C", "src/kernel/TurbKineticEnergyKsgsSrcElemKernel.C", "src/AssembleElemSolverAlgorithm.C"]}
{"id": "C184", "title": "Element and node based turbulence sources are interchangeable", "statement": "A user may select the element or the node version of a turbulence source: in a uniform state with a constant velocity gradient both contribute the same residual and the same matrix row sum to every node. (True for SST, k-epsilon and subgrid models; for the detached-eddy model the residual of k agrees but the element matrix is 2/3 of the node matrix, and omega has no element version of the DES limiter.)", "quantifier": "all elements, uniform states, constants", "why_tests_cant": "needs equality of two code paths for all states", "anchors": ["src/kernel/TurbKineticEnergySSTDESSrcElemKernel.C", "src/TurbKineticEnergySSTDESNodeSourceSuppAlg.C", "src/SpecificDissipationRateSSTDESNodeSourceSuppAlg.C", "src/TurbKineticEnergyKsgsNodeSourceSuppAlg.C", "src/SpecificDissipationRateEquationSystem.C:354"]}
{"id": "C185", "title": "Buoyancy production of turbulence has the right form and sign", "statement": "The subgrid buoyancy source is C Delta sqrt(k) (|grad rho x g| - grad rho . g): non-negative whenever density does not increase along gravity, non-positive when it increases along gravity at least as much as across, bounded by sqrt 2 |grad rho||g|; the Rodi source beta mu_t/Pr_t (g . grad h)/c_p has the sign of g . grad h and vanishes in a neutral atmosphere; neither writes to the matrix.", "quantifier": "all elements, density fields, gravity vectors, prior scratch contents", "why_tests_cant": "sign and bounds quantify over all gradients and gravity directions", "anchors": ["src/kernel/TurbKineticEnergyKsgsBuoyancySrcElemKernel.C:execute", "src/kernel/TurbKineticEnergyRodiSrcElemKernel.C:execute", "src/TurbKineticEnergyRodiNodeSourceSuppAlg.C:node_execute"]}
{"id": "C186", "title": "Buoyancy source does not depend on how threads are scheduled", "statement": "Elements may be processed by several threads through the same kernel object; the source computed for an element should not depend on the schedule. (Proved when threads do not overlap inside an integration point; false otherwise, because the density gradient scratch is a data member shared by all threads.)", "quantifier": "all schedules of any number of integration points", "why_tests_cant": "a race shows only under particular interleavings", "anchors": ["src/kernel/TurbKineticEnergyKsgsBuoyancySrcElemKernel.C:97-124", "include/kernel/TurbKineticEnergyKsgsBuoyancySrcElemKernel.h:67", "include/AssembleElemSolverAlgorithm.h:71-105"]}
{"id": "C187", "title": "Explicit filtering returns a volume weighted mean", "statement": "For every mesh, filter size and field, the explicitly filtered field exists at every node of the search parts and is the volume weighted mean of the element means over the elements whose bounding boxes touch the filter box of the node (periodic images included): no division by zero, no new extrema, uniform fields unchanged, linear in the field.", "quantifier": "all meshes with positive element volumes, all non-negative filter sizes, all nodal fields, all periodic pairings", "why_tests_cant": "a run shows one mesh and one filter; bounds and linearity quantify over all fields", "anchors": ["src/ExplicitFiltering.C:execute", "src/ExplicitFiltering.C:compute_volume", "src/ExplicitFiltering.C:increment_elem_mean", "src/ExplicitFiltering.C:populate_candidate_elements"]}
{"id": "C188", "title": "Filter neighbourhoods do not depend on the parallel distribution", "statement": "For every partition the search throws on no rank, every rank sends exactly those of its elements that touch the box of a node owned elsewhere, each node collects exactly the touching elements once, its own elements always among them, and the filtered field is the same for every partition and number of ranks; enlarging the filter only adds elements.", "quantifier": "all partitions, rank counts, meshes, filter sizes", "why_tests_cant": "tests run a handful of partitions of one mesh", "anchors": ["src/ExplicitFiltering.C:determine_elems_to_ghost", "src/ExplicitFiltering.C:manage_ghosting", "src/ExplicitFiltering.C:complete_search", "src/ExplicitFiltering.C:create_explicit_filter_point_info_map"]}
{"id": "C189", "title": "The reported residual is the integral of the momentum balance", "statement": "The residual reported at a node is minus the integral over its control volume of the momentum balance with the mass balance taken off; it vanishes for uniform motion under hydrostatic pressure with any density history; divided by the dual volume, a uniform balance is returned exactly. (The last and the first hold for elements with one integration point per node; elements with several are given wrong volumes.)", "quantifier": "all meshes, element types, nodal fields, time discretisation coefficients", "why_tests_cant": "consistency of an integral over every mesh cannot be sampled", "anchors": ["src/ExplicitFiltering.C:compute_scv_residual", "src/FieldFunctions.C:field_normalize"]}
{"id": "C190", "title": "A property table is looked up at the state of the node", "statement": "For every HDF5 property table without converters: it is accepted exactly if the names given are as many as its variables and contain them all; whatever the order of the names and whatever was looked up before, the property of every node is the spline at the node's own values, each moved into the variable's range and put on its (logarithmic) scale; the spline is never evaluated outside the box and inside it nothing is altered.", "quantifier": "all tables, name orders, node states and histories of queries", "why_tests_cant": "the mutable lookup buffer is shared by all queries; a test sees one history and one order", "anchors": ["src/tabular_props/HDF5Table.C:update_input_mapping", "src/tabular_props/HDF5Table.C:query", "src/property_evaluator/HDF5TablePropAlgorithm.C:execute"]}
{"id": "C191", "title": "Converters supply the table variables they are named after", "statement": "When a table has converters, the lookup point holds the converted value for each variable a converter produces and the given value for every other variable.", "quantifier": "all tables, converters, name orders, states and histories", "why_tests_cant": "index arithmetic over all lists of names", "anchors": ["src/tabular_props/HDF5Table.C:update_input_mapping", "src/tabular_props/HDF5Table.C:query", "src/tabular_props/Converter.C:Converter"]}
{"id": "C192", "title": "The clip log keeps the worst events", "statement": "After every sequence of queries the number of clipping events is the number of queries outside the box, and the log holds at most the configured number of events, strictly ordered by severity, each a clipped query; a clipped query without an event of its severity means the log is full of worse ones. Severity exceeds one exactly outside the box.", "quantifier": "all query sequences, boxes and log sizes", "why_tests_cant": "an invariant over all histories", "anchors": ["src/tabular_props/HDF5Table.C:log_clip_event", "src/tabular_props/HDF5Table.C:query", "src/tabular_props/HDF5Table.C:set_clipping_log_size"]}
{"id": "C193", "title": "Converters compute the variables of the flamelet library", "statement": "The enthalpy converter inverts the local scaling for all realizable mixtures (and is defined when there is none), stream fractions are completed to non-negative fractions with sum one, the dissipation converters return the input at stoichiometry, scale linearly with it and use the local mixture fraction and variance.", "quantifier": "all mixture states, stream data, constants", "why_tests_cant": "needs all mixtures, and the inner table's wiring for every history", "anchors": ["src/tabular_props/Converter.C:HStarConverter::query", "src/tabular_props/Converter.C:ChiConverter::query", "src/tabular_props/Converter.C:DeltaChiConverter::query", "src/tabular_props/Converter.C:ChiConverter::read_hdf5"]}
{"id": "C194", "title": "The flamelet profiles", "statement": "The dissipation profile is in (0,1], symmetric in the streams and one at equal mixing. The heat-loss profile is zero in the pure streams and outside the realizable region, and linear up to and beyond stoichiometry: a tent for one mixture fraction, and for two (stoichiometric points on the two axes, listed in axis order) the linear blend of the stoichiometric heat losses, falling to zero on the line of pure streams, normalised by the larger heat loss.", "quantifier": "all mixtures and heat losses, stoichiometric points on the axes in axis order", "why_tests_cant": "pointwise values of piecewise formulas on a continuum", "anchors": ["src/tabular_props/Functions.C:F_chi", "src/tabular_props/Functions.C:errorf", "src/tabular_props/Functions.C:inv_errorf", "src/tabular_props/Functions.C:F_gamma", "src/tabular_props/Converter.C:DeltaGammaConverter::query"]}
{"id": "C195", "title": "Quadratic shape functions interpolate", "statement": "On the three-node edge, the nine-node quadrilateral (plane and as a face) and the 27-node hexahedron every shape function is one at its own node and zero at the others; interpolation reproduces every polynomial quadratic in each variable; the tabulated derivatives are the derivatives; on a side the element interpolates like the side element with that side's nodes, so neighbours agree.", "quantifier": "all points of the reference element, all polynomials and nodal fields", "why_tests_cant": "equalities of polynomials on a continuum", "anchors": ["src/master_element/MasterElement.C:quad9_shape_fcn", "src/master_element/MasterElement.C:quad9_shape_deriv", "src/master_element/MasterElement.C:Edge32DSCS::shape_fcn", "src/master_element/Hex27CVFEM.C:hex27_shape_fcn", "src/master_element/Hex27CVFEM.C:hex27_shape_deriv", "src/master_element/Hex27CVFEM.C:Quad93DSCS::quad9_shape_fcn"]}
{"id": "C196", "title": "The quadrature of quadratic elements", "statement": "The Gauss points of each of the three sub-intervals lie inside it with positive weights, integrate every cubic on it exactly (and hence on the whole interval), weights sum to the measure of the reference element, and the shifted volume points of the quadrilateral are its nodes.", "quantifier": "all cubics, all sub-intervals", "why_tests_cant": "exactness for a space of functions", "anchors": ["src/master_element/MasterElement.C:gauss_point_location", "src/master_element/MasterElement.C:tensor_product_weight", "src/master_element/MasterElement.C:shifted_gauss_point_location"]}
{"id": "C197", "title": "Nodal volumes of a nine-node quadrilateral", "statement": "For every (curved) element the volumes assigned to a node add up to the exact area of its part of the element, all volumes to the area of the element, and the error flag is raised exactly if a Jacobian is below the threshold or an error was already reported.", "quantifier": "all node positions, all nodes, thresholds and previous flags", "why_tests_cant": "an integral identity for all geometries", "anchors": ["src/master_element/Quad92DCVFEM.C:Quad92DSCV::determinant", "src/master_element/Quad92DCVFEM.C:Quad92DSCV::jacobian_determinant", "src/master_element/Quad92DCVFEM.C:Quad92DSCV::set_interior_info"]}
{"id": "C198", "title": "Control volumes of nine-node quadrilaterals are closed", "statement": "The area vectors of each dual-mesh segment add up to its turned chord, and around every node the area vectors of interior surfaces and boundary edges, each counted for the node the element assigns to it, add up to zero, for every curved element.", "quantifier": "all node positions, all nodes", "why_tests_cant": "geometric identity for all geometries", "anchors": ["src/master_element/Quad92DCVFEM.C:Quad92DSCS::determinant", "src/master_element/Quad92DCVFEM.C:Quad92DSCS::set_interior_info", "src/master_element/Quad92DCVFEM.C:Quad92DSCS::set_boundary_info", "src/master_element/MasterElement.C:Edge32DSCS::determinant"]}
{"id": "C199", "title": "The connectivity tables of the nine-node quadrilateral", "statement": "Each interior surface point lies on the common boundary of the volumes of its left and right node; the face points and nodes the element keeps are those of the edge element carried to the side; the opposing point of a face point is straight behind it, from the face node to the opposing node.", "quantifier": "all integration points and sides", "why_tests_cant": "must hold for every entry of the generated tables together", "anchors": ["src/master_element/Quad92DCVFEM.C:Quad92DSCS::set_interior_info", "src/master_element/Quad92DCVFEM.C:Quad92DSCS::set_boundary_info", "src/master_element/Quad92DCVFEM.C:opposingNodes", "src/master_element/Quad92DCVFEM.C:opposingFace", "src/master_element/MasterElement.C:sidePcoords_to_elemPcoords"]}
{"id": "C200", "title": "Gradient operators of quadratic elements", "statement": "The gradient operators of the nine-node quadrilateral (surface points and faces) and the 27-node hexahedron satisfy the chain rule for the interpolated field in every reference direction, and give linear fields their exact gradient, at every point where the Jacobian is admissible.", "quantifier": "all node positions, points with admissible Jacobian, fields", "why_tests_cant": "algebra over all geometries", "anchors": ["src/master_element/Quad92DCVFEM.C:quad_gradient_operator", "src/master_element/Quad92DCVFEM.C:Quad92DSCS::grad_op", "src/master_element/Hex27CVFEM.C:Hex27SCS::gradient"]}
{"id": "C201", "title": "Control volumes of 27-node hexahedra are closed", "statement": "Around every node the area vectors of interior surfaces and boundary faces, each counted for the node the element assigns to it, add up to zero for every curved element; on the reference cube each points from its left to its right node.", "quantifier": "all node positions, all nodes", "why_tests_cant": "216 surface points and 216 face points for all geometries", "anchors": ["src/master_element/Hex27CVFEM.C:Hex27SCS::area_vector", "src/master_element/Hex27CVFEM.C:Hex27SCS::set_interior_info", "src/master_element/Hex27CVFEM.C:Hex27SCS::set_boundary_info", "src/master_element/Hex27CVFEM.C:Quad93DSCS::area_vector"]}
{"id": "C202", "title": "The connectivity tables of the 27-node hexahedron", "statement": "Each interior surface point lies on the common boundary of the volumes of its left and right node; the face points and nodes the element keeps are those of the face element carried to the side, in order; the opposing point of a face point is straight behind it, from the face node to the opposing node.", "quantifier": "all 216 surface points and 216 face points", "why_tests_cant": "must hold for every entry of the generated tables together", "anchors": ["src/master_element/Hex27CVFEM.C:Hex27SCS::set_interior_info", "src/master_element/Hex27CVFEM.C:Hex27SCS::set_boundary_info", "src/master_element/Hex27CVFEM.C:Hex27SCS::sidePcoords_to_elemPcoords", "src/master_element/Hex27CVFEM.C:opp_face_map"]}
{"id": "C203", "title": "Nodal volumes of a 27-node hexahedron", "statement": "The volumes assigned to a node add up to the exact volume of its part of the element.", "quantifier": "all node positions, all nodes", "why_tests_cant": "an integral identity for all geometries", "anchors": ["src/master_element/Hex27CVFEM.C:Hex27SCV::determinant", "src/master_element/Hex27CVFEM.C:Hex27SCV::jacobian_determinant"]}
{"id": "C204", "title": "Batches of quadratic boundary elements", "statement": "When area vectors of several boundary elements are requested at once, every integration point of every element gets its own area vector.", "quantifier": "all batch sizes and geometries", "why_tests_cant": "offset arithmetic for all batch sizes", "anchors": ["src/master_element/MasterElement.C:Edge32DSCS::determinant", "src/master_element/Hex27CVFEM.C:Quad93DSCS::determinant"]}
{"id": "C205", "title": "Finding a point in a nine-node quadrilateral", "statement": "A converged search ended with a step shorter than the tolerance that solves the linearised equation, and returns the larger coordinate as distance; on every non-degenerate parallelogram it always converges to the exact coordinates, and the distance is at most one exactly for points of the element.", "quantifier": "all elements, points and tolerances", "why_tests_cant": "convergence for all points of a continuum", "anchors": ["src/master_element/MasterElement.C:QuadrilateralP2Element::isInElement", "src/master_element/MasterElement.C:parametric_distance"]}
{"id": "C206", "title": "Gradients at the volume points of a nine-node quadrilateral", "statement": "The gradient operator at the volume points gives linear fields their exact gradient at every volume point.", "quantifier": "all geometries and volume points", "why_tests_cant": "array bounds against the number of points", "anchors": ["src/master_element/Quad92DCVFEM.C:Quad92DSCV::grad_op", "src/master_element/Quad92DCVFEM.C:Quad92DSCV::shifted_grad_op"]}
{"id": "C207", "title": "The element solver algorithms assemble what the kernels assemble", "statement": "For every element the algorithms that keep the local matrix and all workspaces in flat vectors (scalar diffusion, scalar advection-diffusion, momentum, continuity with its shifted-gradient options) gather each field to the place they later read, and leave in every entry of the local matrix and right-hand side exactly the value of the corresponding consolidated kernel; they write nothing outside the vectors' used length; so the conservation, linearisation and exactness properties of the kernels hold for them.", "quantifier": "all element topologies, dimensions, geometries, fields, option values, old contents of the workspaces", "why_tests_cant": "offset arithmetic must be right for every node count, dimension and entry", "anchors": ["src/AssembleScalarElemSolverAlgorithm.C:execute", "src/AssembleScalarElemDiffSolverAlgorithm.C:execute", "src/AssembleMomentumElemSolverAlgorithm.C:execute", "src/AssembleContinuityElemSolverAlgorithm.C:execute"]}
{"id": "C208", "title": "The element boundary algorithms assemble what the face kernels assemble", "statement": "The flat-array algorithms for prescribed inflow, open pressure, open scalar, open momentum and symmetry faces leave in every entry of the local system exactly the value of the corresponding face kernel, and write nothing beyond it.", "quantifier": "all element and face topologies, geometries, fields, signs of the mass flow, option values", "why_tests_cant": "offset arithmetic and branch on the flow direction for every entry", "anchors": ["src/AssembleContinuityInflowSolverAlgorithm.C:execute", "src/AssembleContinuityElemOpenSolverAlgorithm.C:execute", "src/AssembleScalarElemOpenSolverAlgorithm.C:execute", "src/AssembleMomentumElemOpenSolverAlgorithm.C:execute", "src/AssembleMomentumElemSymmetrySolverAlgorithm.C:execute"]}
{"id": "C209", "title": "Three wall-function momentum implementations agree", "statement": "The flat-array wall-function algorithm leaves in every entry of the local matrix and right-hand side what the consolidated face kernel leaves, and writes nothing else; with the shifted (lumped) rule the kernel assembles what the edge-based wall-function algorithm assembles.", "quantifier": "all face topologies, dimensions, geometries, velocities, wall data, old contents of the workspaces", "why_tests_cant": "offset arithmetic and interpolation for every entry", "anchors": ["src/AssembleMomentumElemWallFunctionSolverAlgoirthm.C:execute", "src/kernel/MomentumWallFunctionElemKernel.C:execute", "src/AssembleMomentumEdgeWallFunctionSolverAlgoirthm.C:execute"]}
{"id": "C210", "title": "The element wall function is a dissipative traction with exact Jacobian", "statement": "With friction velocity and wall distance held, the assembled matrix is the exact derivative of the residual; the momentum given to the nodes of a face is minus the viscous force the post-processing reports for it; the traction is opposite to the slip velocity, vanishes when fluid moves with the wall, has no component along the wall normal and takes energy out of the flow.", "quantifier": "all faces, velocities, wall velocities, positive properties, both branches of the law of the wall", "why_tests_cant": "identities between matrix, residual and reported force for all fields", "anchors": ["src/kernel/MomentumWallFunctionElemKernel.C:execute", "src/SurfaceForceAndMomentWallFunctionAlgorithm.C:execute"]}
{"id": "C211", "title": "The projected wall function applies the wall stress it computed", "statement": "The projected wall-function algorithm only adds to the right-hand side; what it gives to a face is minus the reported viscous force; with the logarithmic law it is -lambda times the slip at the projected point; with the ODE model it is a force of magnitude rho*utau^2*area against the slip.  (Where the fluid at the projected point moves with the wall the ODE form divides zero by zero.)", "quantifier": "all faces, exchange velocities, friction velocities", "why_tests_cant": "an identity for all fields; the degenerate denominator is reached only on a set of measure zero", "anchors": ["src/AssembleMomentumElemWallFunctionProjectedSolverAlgorithm.C:execute", "src/SurfaceForceAndMomentWallFunctionProjectedAlgorithm.C:execute"]}
{"id": "C212", "title": "The wall-model grid spans the projected distance", "statement": "The points of the one-dimensional wall model start at the wall, end exactly at the projected point, increase strictly, grow by a constant ratio, and the last spacing is the bias times the first; the projected point lies at the requested distance from the wall, straight into the fluid.", "quantifier": "all biases other than one, numbers of points from three, distances, wall orientations", "why_tests_cant": "a statement for every number of points and every real bias", "anchors": ["src/PointInfo.C:initialize_ode_points", "src/ComputeWallFrictionVelocityProjectedAlgorithm.C:construct_bounding_points"]}
{"id": "C213", "title": "The tridiagonal solver solves", "statement": "Whenever no pivot vanishes the tridiagonal solver returns the unique solution of the system; no pivot vanishes for diagonally dominant systems of any size.", "quantifier": "all sizes, all coefficient values", "why_tests_cant": "induction over the size of the system", "anchors": ["src/PointInfo.C:tdma"]}
{"id": "C214", "title": "The wall-model profile is an equilibrium", "statement": "For a given stress the profile takes the wall velocity at the wall and the exchange velocity at the projected point, the total shear stress is the same through every segment - the velocity difference over the total resistance - and the profile is monotone.", "quantifier": "all stresses, grids, properties, velocities", "why_tests_cant": "holds for every number of points and viscosity distribution", "anchors": ["src/PointInfo.C:assemble", "src/PointInfo.C:solve", "src/PointInfo.C:compute_visc"]}
{"id": "C215", "title": "What the wall-model iteration returns", "statement": "The stress map stays between two laminar values and has a fixed point; the returned friction velocity is that of a stress obtained by repeating the map from the guess; with the converged flag set it reproduces itself within the tolerance, without it the iteration limit was used up; without slip the stress falls below the tolerance; the result does not depend on earlier calls.  The full claim - that the returned stress is the stress the profile carries - does not hold: it is read with the laminar viscosity only and is strictly below.", "quantifier": "all guesses, velocities, properties, iteration limits, call histories", "why_tests_cant": "holds for every history and every number of iterations", "anchors": ["src/PointInfo.C:solve", "src/ComputeWallFrictionVelocityProjectedAlgorithm.C:compute_utau_ode"]}
{"id": "C216", "title": "Projected points get the nearest element", "statement": "A projected point gets, among the elements the coarse search lists for it on its rank, one with the smallest parametric distance together with the coordinates computed in it; the run stops when no pair carries the point's number.  The full claim - that a point without an element stops the run - does not hold in parallel, because points of different ranks share numbers.", "quantifier": "all search results, element geometries, ranks", "why_tests_cant": "depends on the partition and on the order of search results", "anchors": ["src/ComputeWallFrictionVelocityProjectedAlgorithm.C:complete_search"]}
{"id": "C217", "title": "Material properties are evaluated as specified", "statement": "Property set-up stops exactly when a block with a target does not say, or says in an unsupported way, how a registered property is computed; otherwise, after the properties were evaluated, the field of a property has at every covered node the value the specification of the last covering block prescribes, and nodes no block covers keep their values in every field.", "quantifier": "all lists of blocks, targets, registered properties, specifications, meshes, old field contents", "why_tests_cant": "the property map, blocks and targets combine without bound", "anchors": ["src/Realm.C:setup_property", "src/Realm.C:augment_property_map", "src/Realm.C:evaluate_properties", "src/AuxFunctionAlgorithm.C:execute", "src/property_evaluator/GenericPropAlgorithm.C:execute"]}
{"id": "C218", "title": "A block works with its own constants", "statement": "A block that states reference pressure, temperature and universal gas constant gets them whatever other blocks state.  The full claim - that a block that leaves a constant out gets the documented default, and that each block is looked up in its own table file - does not hold: both leak from earlier blocks.", "quantifier": "all lists of blocks, constants and file names", "why_tests_cant": "depends on the history of the blocks set up before", "anchors": ["src/Realm.C:setup_property", "src/MaterialProperty.C:extract_universal_constant"]}
{"id": "C219", "title": "Mixing laws are bounded and consistent", "statement": "A property linear in mixture fraction or volume fraction takes the two given values at one and zero and stays between them; a mixture-fraction density has as its inverse the mass-weighted mean of the specific volumes, is positive and lies between the two densities.", "quantifier": "all primary and secondary values, all fractions in [0,1]", "why_tests_cant": "a statement over the reals", "anchors": ["src/property_evaluator/LinearPropAlgorithm.C:execute", "src/property_evaluator/InversePropAlgorithm.C:execute"]}
{"id": "C220", "title": "Ratio of specific heats gives consistent Cp and Cv", "statement": "With gas dynamics and a constant gamma the three fields hold gamma, Cp and Cv with Cp = gamma*Cv and Cp - Cv the gas constant of the reference mixture, positive, at the nodes of the last covering target, also when a specific heat was specified too; the enthalpy evaluator of the block is that of the same Cp with the block's own reference temperature, whatever the other blocks say.", "quantifier": "all blocks, mixtures, gammas above one, target orders", "why_tests_cant": "depends on the order of the algorithms of several properties", "anchors": ["src/Realm.C:setup_property"]}
{"id": "C221", "title": "Specific heat and enthalpy evaluators belong together", "statement": "In every block, whatever the others say, a constant, per-species, polynomial or water specific heat leaves, when enthalpy is needed, a pair of evaluators with the same specific heat, gas constant and species treatment.  The full claim - that every accepted specific heat leaves evaluators for the enthalpy equation - does not hold: mixture fraction, volume of fluid, geometric and table specifications leave null pointers.", "quantifier": "all blocks and accepted specifications", "why_tests_cant": "depends on the order in which properties are visited", "anchors": ["src/Realm.C:setup_property", "src/EnthalpyEquationSystem.C:extract_temperature"]}
{"id": "C222", "title": "Effective diffusion coefficients compose", "statement": "With conductivity from the laminar Prandtl number the diffusion coefficient of the enthalpy equation is the one a scalar with that Prandtl number gets; the effective coefficient is laminar plus turbulent part over their Schmidt numbers, positive, and never lowered by turbulence.", "quantifier": "all fields, Prandtl and Schmidt numbers", "why_tests_cant": "identity for all fields", "anchors": ["src/property_evaluator/ThermalConductivityFromPrandtlPropAlgorithm.C:execute", "src/EffectiveDiffFluxCoeffAlgorithm.C:execute", "src/EnthalpyEffectiveDiffFluxCoeffAlgorithm.C:execute"]}
{"id": "C223", "title": "Property specifications are read as written", "statement": "Reading fails exactly if some specification has a name that is not a property name; otherwise a property has the last specification with its name or keeps what it had.  The full claim - that an accepted constant specification gives its value - does not hold for per-species constants outside the enthalpy equation, which fill the field with zero.", "quantifier": "all lists of specifications", "why_tests_cant": "all lists, with repetition", "anchors": ["src/MaterialProperty.C:load", "src/MaterialPropertys.C:load", "src/Realm.C:setup_property"]}
{"id": "C224", "title": "Copying a field copies the requested components", "statement": "When the end of the copied range is the number of components, the components from the begin on of every entity are copied and nothing else changes.  For any other end the stride is wrong and values end up at other entities.", "quantifier": "all bucket lengths, ranges, contents", "why_tests_cant": "index arithmetic for all sizes", "anchors": ["src/CopyFieldAlgorithm.C:execute"]}
{"id": "C225", "title": "Reported Courant and Reynolds numbers are the true maxima", "statement": "Every active element gets the largest Courant and Reynolds number of its integration points; the realm's numbers are the largest over all elements of all processes, independent of the partition; each is the edge-wise travel distance (speed) over the length, bounded by speed*dt/length, and independent of edge orientation, origin and axes; the time step proposed from the largest Courant number has the target as its largest Courant number unless the user's factor limits it.  Without any active element both are -1 and the proposed step is negative.", "quantifier": "all meshes, partitions, velocities, viscosities, time steps, targets", "why_tests_cant": "all partitions and fields", "anchors": ["src/AssembleCourantReynoldsElemAlgorithm.C:execute", "src/Realm.C:compute_adaptive_time_step"]}
{"id": "C226", "title": "Gas-dynamics Courant number includes sound", "statement": "The Courant number of gas dynamics is that of flow speed along the edge plus mean speed of sound, larger than that of the flow and positive.  The full claim - that the Reynolds number is that of the flow - does not hold: it is built with the same sum of speeds.", "quantifier": "all elements, fields, positive speeds of sound", "why_tests_cant": "a statement over the reals", "anchors": ["src/gas_dynamics/AssembleGasDynamicsCourantReynoldsElemAlgorithm.C:execute"]}
{"id": "C227", "title": "Finite-element Courant number is the reference-element speed", "statement": "On elements in two and three dimensions with determinant above the clip the Courant number is half the distance travelled in reference coordinates per step; on an axis-aligned brick it is dt*sqrt(sum (v_i/h_i)^2), at least that of every direction, and on a cube the Reynolds number is speed times side over kinematic viscosity.", "quantifier": "all Jacobians, velocities, shape functions", "why_tests_cant": "a statement over the reals", "anchors": ["src/AssembleCourantReynoldsFemAlgorithm.C:execute", "src/master_element/MasterElementWork.F:threed_gij"]}
{"id": "C228", "title": "The limiter error indicator stays in its range", "statement": "The limiter indicator never throws and lies between 1e-8 and 1+1e-8 on every element.  The full claim - that it is small where the velocity is resolved - does not hold: it exceeds 1/4 for linear fields with exact gradients and is maximal for a uniform velocity.", "quantifier": "all elements and fields", "why_tests_cant": "a statement over the reals", "anchors": ["src/LimiterErrorIndicatorElemAlgorithm.C:execute", "src/LimiterErrorIndicatorElemAlgorithm.C:van_leer"]}
{"id": "C229", "title": "Simple error indicators measure what their name says", "statement": "simple.dudx2 of a scalar is the root mean square of the differences the averaged gradients predict over the edges, of the velocity the square root of twice that; in 3D the vorticity is the curl of the left node's own gradient.  The full claim does not hold in 2D (entries of the next node are read, past the end for the last, and the only component is dropped), for scalars (identically zero) and for the length weight of simple.vorticity_dx (depends on the direction of the edge).", "quantifier": "all elements, fields, dimensions", "why_tests_cant": "flat-array index arithmetic for all nodes and values", "anchors": ["src/SimpleErrorIndicatorElemAlgorithm.C:execute", "src/SimpleErrorIndicatorScalarElemAlgorithm.C:execute"]}
{"id": "C230", "title": "Pressure-stabilization indicator vanishes for linear pressure", "statement": "The element indicator vanishes for a linear pressure with exact nodal gradients and bounds the stabilization fluxes from above; the edge indicator vanishes too when the non-orthogonal correction is on.  The full claim does not hold with the correction off (the nodal gradients are dropped altogether) and for heat conduction the element version scales with the time step while the edge version does not.", "quantifier": "all elements, pressures, gradients, options", "why_tests_cant": "identity for all fields", "anchors": ["src/PstabErrorIndicatorElemAlgorithm.C:execute", "src/PstabErrorIndicatorEdgeAlgorithm.C:execute"]}
{"id": "C231", "title": "The named error indicator is the one that runs", "statement": "Each documented name selects its indicator; heat conduction stops for the limiter.  The full claim - other choices are refused - does not hold: an unknown name registers a null algorithm in the low Mach equations, and heat conduction accepts the vorticity names and yields zero.", "quantifier": "all names", "why_tests_cant": "all strings", "anchors": ["src/SolutionOptions.C:load", "src/LowMachEquationSystem.C:register_interior_algorithm", "src/HeatCondEquationSystem.C:register_interior_algorithm", "include/SolutionOptions.h:ErrorIndicatorType"]}
{"id": "C232", "title": "Largest edge length is partition-independent", "statement": "After the reduction every node of an element edge holds the length of the longest edge at that node, whichever process owns the element.", "quantifier": "all meshes and partitions", "why_tests_cant": "all partitions and element orders", "anchors": ["src/ComputeSSTMaxLengthScaleElemAlgorithm.C:execute"]}
{"id": "C233", "title": "User functions write exactly the data of their points", "statement": "Evaluating the table, linear and mesh-displacement user functions over a bucket gives every point the function of its own coordinates in the chosen component and zero in the others (the ramp: rate times time in each component), independent of what the field held before, and touches nothing outside the bucket's data; the component range reaching the implementation is the one given at construction; the linear function takes its two prescribed values. Limits: the component number is not compared with the field size, and the sinusoidal displacement leaves the third component untouched in 3D.", "quantifier": "every number of points, stride, field size, component, coordinate array and previous field content", "why_tests_cant": "tests evaluate one point or one bucket size; a stride or offset error shows only for other sizes", "anchors": ["include/AuxFunction.h:AuxFunction::evaluate", "src/user_functions/TableAuxFunction.C:do_evaluate", "src/user_functions/LinearAuxFunction.C", "src/user_functions/LinearRampMeshDisplacementAuxFunction.C", "src/user_functions/SinMeshDisplacementAuxFunction.C"]}
{"id": "C234", "title": "One-dimensional table is the piecewise linear function through the user's pairs", "statement": "With distinct abscissas, in whatever order the pairs are given, the table function takes each ordinate at its abscissa, is linear between neighbouring abscissas, constant beyond the extreme ones, always defined and within the range of the ordinates; the order of the pairs never matters; fewer than two pairs are refused; a component number above 2 selects time. Limits: an odd number of parameters reads past the end; a jump given by two pairs with the same abscissa can divide by zero at that abscissa.", "quantifier": "every list of pairs, every order, every abscissa", "why_tests_cant": "tests use one sorted table and a few points", "anchors": ["src/user_functions/TableAuxFunction.C:TableAuxFunction", "src/user_functions/TableAuxFunction.C:interp"]}
{"id": "C235", "title": "Two-dimensional table is bilinear, clamped and ramped", "statement": "For strictly increasing axes the value at any point is the bilinear interpolation of the four corner entries of the cell that holds the point clamped to the table, times min(time/T,1): exact at the grid points, within the range of the entries everywhere, whichever of two adjacent cells the search picks.", "quantifier": "every table with strictly increasing axes of at least two entries, every point, time and blending time", "why_tests_cant": "tests check a few points of one table", "anchors": ["src/user_functions/Table2dAuxFunction.C:do_evaluate", "src/user_functions/Table2dAuxFunction.C:find_entry"]}
{"id": "C236", "title": "Two-dimensional table file is stored as written", "statement": "A file with a header and one row per grid point, abscissa by abscissa, is stored so that axes and entries are those of the file and the function reproduces every row at its point. Limit: this holds only when the file ends right after its last number; with a trailing newline the last row is read twice and the copy is written outside the array, for every grid.", "quantifier": "every grid size, axes and entries; both endings of the file", "why_tests_cant": "a test file without a final newline passes; the failure is an out-of-bounds write that may go unnoticed", "anchors": ["src/user_functions/Table2dAuxFunction.C:Table2dAuxFunction"]}
{"id": "C237", "title": "Wall user functions move with the mesh", "statement": "The wall velocity given by the wind-energy function equals the mesh velocity of the motion block it names (same centre, axis and rate, rate times the tanh blending factor, which is 1 without specification and otherwise strictly between 0 and 1), and the mesh-motion function equals the six-degree-of-freedom mesh velocity, so the wall never slips relative to the mesh.", "quantifier": "every rate, axis, centre, displacement, translation, point and time", "why_tests_cant": "agreement is between two separately written pieces of code at all points", "anchors": ["src/user_functions/WindEnergyAuxFunction.C", "src/user_functions/MeshMotionAuxFunction.C", "src/Realm.C:set_mesh_velocity", "src/Realm.C:set_mesh_velocity_six_dof"]}
{"id": "C238", "title": "Laminar duct solution satisfies its equations", "statement": "Every truncation of the series solution for flow in a rectangular duct satisfies mu lap w = dp/dz exactly at every point, vanishes on two walls and is symmetric; on the other two walls its value tends to zero with the number of terms.", "quantifier": "every pressure gradient, viscosity, duct size, number of terms and point", "why_tests_cant": "an analytic identity and a limit", "anchors": ["src/user_functions/OneTwoTenVelocityAuxFunction.C"]}
{"id": "C239", "title": "Cylinder temperature function", "statement": "Off the axis the computed angle is the one measured from the upstream direction, in [0,360]; the binary search terminates and the value is the piecewise linear interpolation of any strictly increasing table, constant outside; with the class's 25 measurements the temperature is always found, between the coldest and the hottest measured value in kelvin, without a jump where the angle wraps.", "quantifier": "every point off the axis; every increasing table and angle", "why_tests_cant": "the quadrant logic and the search have many branches; tests hit a few", "anchors": ["src/user_functions/FlowPastCylinderTempAuxFunction.C:do_evaluate", "src/user_functions/FlowPastCylinderTempAuxFunction.C:find_index", "src/user_functions/FlowPastCylinderTempAuxFunction.C:interpolate_data"]}
{"id": "C240", "title": "Concentric sphere temperature solves the conduction problem", "statement": "The prescribed temperature between concentric spheres is harmonic away from the centre, takes the two wall values on the two spheres and lies between them in between.", "quantifier": "every pair of radii and temperatures and every point off the centre", "why_tests_cant": "an analytic identity at all points", "anchors": ["src/user_functions/ConcentricAuxFunction.C"]}
{"id": "C241", "title": "Inflow profiles have the shape they are named for", "statement": "The power-law pipe profile has its centreline value on the axis, vanishes at and beyond the wall, is bounded and does not increase outward; the atmospheric power law takes the known speed at the known height, is nonnegative and increases with height; the pulse is on up to and including its time and off afterwards; the Gaussian has its height, centre, symmetry, standard deviation and bounds; the sinusoidal pipe profile vanishes at multiples of 1/a, has period 2/a and is bounded.", "quantifier": "all parameters (with the stated signs), all points and times", "why_tests_cant": "tests check values at a few points", "anchors": ["src/user_functions/PowerlawPipeVelocityAuxFunction.C", "src/user_functions/PowerlawVelocityAuxFunction.C", "src/user_functions/PulseVelocityAuxFunction.C", "src/user_functions/ScalarGaussianAuxFunction.C", "src/user_functions/SinProfilePipeFlowVelocityAuxFunction.C"]}
{"id": "C242", "title": "Perturbed initial flows are admissible", "statement": "The perturbed boundary layer is divergence free, vanishes at the wall, has a mean within the free stream which it reaches at five thicknesses, and a perturbation within the amplitude; the perturbed plug flow obeys no slip on both walls, is periodic with the domain lengths and deviates from its base profile by at most a twentieth of it.", "quantifier": "all parameters and points", "why_tests_cant": "analytic identities", "anchors": ["src/user_functions/BoundaryLayerPerturbationAuxFunction.C", "src/user_functions/ChannelFlowPerturbedPlugVelocityAuxFunction.C"]}
{"id": "C243", "title": "Initial mixture and volume fraction fields", "statement": "The Rayleigh-Taylor mixture fraction is within [0,1], 0 below and 1 above the perturbed layer; the box and wave indicators are exactly 0 or 1 on the sides stated. Limit: the layer joins the streams continuously only if height/thickness is an odd integer (as with the defaults); for an even ratio it is upside down.", "quantifier": "all parameters (scale in [0,1]) and points", "why_tests_cant": "the sine layer happens to fit the default parameters used by tests", "anchors": ["src/user_functions/RayleighTaylorMixFracAuxFunction.C", "src/user_functions/RecMixFracAuxFunction.C", "src/user_functions/SinVofAuxFunction.C"]}
{"id": "C244", "title": "Local system of the projected nodal gradient", "statement": "For every element and every leftover content of the work arrays, row (node, component) of the element right-hand side is the interpolated scalar times the area of the node's surfaces (plus on the left, minus on the right) minus the volume integral of the interpolated gradient; the matrix couples equal components of two nodes by the volume-weighted shape function and different components not at all; its rows sum to the node's volume when the shape functions sum to one; the right-hand side is exactly the gradient-free one minus matrix times gradient; boundary faces add boundary value (minus dynamic pressure) times exposed area and never touch the matrix; nothing outside the element's rows is written.", "quantifier": "every number of nodes, integration points, dimensions, geometry table, scalar and gradient field and previous array content", "why_tests_cant": "an index error in the flat arrays shows only for some component and node; the tests solve one mesh", "anchors": ["src/AssemblePNGElemSolverAlgorithm.C:execute", "src/AssemblePNGBoundarySolverAlgorithm.C:execute", "src/AssemblePNGPressureBoundarySolverAlgorithm.C:execute"]}
{"id": "C245", "title": "The projected nodal gradient solve converges to the projected gradient, and the velocity gradient is filled row by row", "statement": "With an exact linear solver the gradient after any positive number of iterations is the unique solution from every start; with an inexact linear solver the error is multiplied by 1 - S M per iteration; for the velocity, row i of the velocity gradient becomes the projected gradient of component i for every i, each solve starts from the previous row i, other storage and the velocity are untouched.", "quantifier": "every vector space, matrix, right-hand side, start, iteration count, dimension and field", "why_tests_cant": "tests use one matrix and three components on one mesh", "anchors": ["src/ProjectedNodalGradientEquationSystem.C:solve_and_update_external", "src/LowMachEquationSystem.C:MomentumEquationSystem::compute_projected_nodal_gradient", "src/FieldFunctions.C:field_index_copy"]}
{"id": "C246", "title": "Plane nodal gradients are exact for linear fields on every mesh", "statement": "On every conforming mesh of quadrilaterals and triangles of any shape, the element-based nodal gradient (interior surfaces plus exposed sides, divided by the dual volume) of a linear field is exactly its gradient at every node, boundary and corner nodes included; constants have zero gradient.", "quantifier": "every conforming mesh, every coordinates, every linear field, every node with non-zero dual volume", "why_tests_cant": "a test checks one mesh; the identity needs surface tables, integration points, volumes and boundary sides to fit for all shapes", "anchors": ["src/AssembleNodalGradElemAlgorithm.C:execute", "src/AssembleNodalGradBoundaryAlgorithm.C:execute", "src/master_element/Quad42DCVFEM.C", "src/master_element/Tri32DCVFEM.C"]}
{"id": "C247", "title": "Solid nodal gradients are exact for linear fields on affine mixed meshes", "statement": "On every conforming mesh mixing arbitrary tetrahedra with affine hexahedra, wedges and pyramids, the nodal gradient of a linear field is exact at every node including the boundary; on open boundaries the pressure gradient is the exact one minus the dynamic pressure force of the node's share of the open faces per volume. On a distorted hexahedron it is not exact (shown by an example), so the affine hypothesis is needed.", "quantifier": "every conforming mesh with such elements, every linear field, every node with non-zero dual volume, every list of open faces and dynamic pressures", "why_tests_cant": "a test checks one mesh and one field", "anchors": ["src/AssembleNodalGradElemAlgorithm.C:execute", "src/AssembleNodalGradUElemAlgorithm.C:execute", "src/AssembleNodalGradPBoundaryAlgorithm.C:execute", "src/master_element/Hex8CVFEM.C", "src/master_element/Tet4CVFEM.C", "src/master_element/Wed6CVFEM.C", "src/master_element/Pyr5CVFEM.C"]}
{"id": "C248", "title": "Constants have no gradient on any solid mesh", "statement": "On every conforming mesh of hexahedra, tetrahedra, wedges and pyramids of any shape, the nodal gradient of a constant is exactly zero at every node, and adding a constant to any field (the pressure level) does not change its nodal gradient.", "quantifier": "every conforming mesh, all coordinates, every field and constant, every node", "why_tests_cant": "a test checks one level and mesh; an error would drive spurious flow", "anchors": ["src/AssembleNodalGradElemAlgorithm.C:execute", "src/AssembleNodalGradBoundaryAlgorithm.C:execute"]}
{"id": "C249", "title": "The projected nodal gradient system is consistent on meshes", "statement": "The assembled residual vanishes at every node when the gradient unknown is the exact gradient of a linear field on affine mixed meshes, and when it is zero for a constant field on elements of any shape; the residual of the zero gradient divided by the dual volume is the explicit nodal gradient; the rows of the assembled matrix sum to the dual volume, so lumping the matrix reproduces the explicit gradient.", "quantifier": "every conforming mesh as in C247 and C248, every field, every node", "why_tests_cant": "tests compare one mesh; the statement links two separately coded paths for all of them", "anchors": ["src/AssemblePNGElemSolverAlgorithm.C:execute", "src/AssemblePNGBoundarySolverAlgorithm.C:execute", "src/AssembleNodalGradElemAlgorithm.C:execute"]}
{"id": "C250", "title": "Boundary data of the projected nodal gradient", "statement": "The last name set for a boundary type counts; every equation system that owns such a gradient can register walls, and all but heat conduction also inflow, open and symmetry (heat conduction stops with the missing-type error); the value used is the field itself except boundary mixture fraction on control-volume inflows and boundary pressure on open boundaries; dynamic pressure is subtracted exactly on open boundaries of the control-volume continuity system; the finite element form silently skips symmetry and non-conformal boundaries.", "quantifier": "every owner, boundary type, data map and name", "why_tests_cant": "a test exercises one boundary set", "anchors": ["src/ProjectedNodalGradientEquationSystem.C:set_data_map", "src/ProjectedNodalGradientEquationSystem.C:register_open_bc", "src/HeatCondEquationSystem.C:manage_projected_nodal_gradient", "src/MixtureFractionEquationSystem.C:manage_projected_nodal_gradient"]}
{"id": "C251", "title": "Force and moment handed to a six-degree-of-freedom body", "statement": "The body receives the pressure and viscous forces of all points of its forcing surfaces on all ranks plus the forces of all its tethers, and their moments about its current centre (centroid plus displacement); all other quantities of the body keep their value; the result depends neither on the distribution of faces over ranks nor on their order nor on the previous force and moment; closed surfaces in a fluid at rest under uniform pressure give no force.", "quantifier": "every list of tethers, distribution of contributions over ranks, body state, flow field and mesh", "why_tests_cant": "a test runs one body on one decomposition", "anchors": ["src/SixDofSurfaceForceAndMomentAlgorithm.C:execute"]}
{"id": "C252", "title": "Tethers are conservative springs attached to the moving body", "statement": "The attachment point of a tether is the current position of the mesh point it is given for, its lever arm keeps its length; a tether that may not slacken is a linear spring along the line to its anchor, one that may slacken is that spring when stretched and exerts nothing otherwise; a stretched tether never pushes away from the anchor; force and moment together do the work of the force at the attachment point, and that work is minus the change of the elastic energy along every motion.", "quantifier": "every tether, body position and orientation, every differentiable motion of the attachment point", "why_tests_cant": "an integration test checks one trajectory; work conservation is a statement about all motions", "anchors": ["src/SixDofSurfaceForceAndMomentAlgorithm.C:execute", "src/utils/SixDof.C:convert_vect"]}
{"id": "C253", "title": "Nodal force fields of the six-degree-of-freedom driver", "statement": "The nodal pressure force, wall shear stress and y+ are the sums of this call's contributions over all ranks. Proved: one call adds to every rank its own points' contributions, weighted with the area share over all ranks, the area being recomputed each call; after n calls with equal flow the fields are n times that.", "quantifier": "every distribution of points over ranks, previous field content and number of calls", "why_tests_cant": "a test runs one rank and one step", "anchors": ["src/SixDofSurfaceForceAndMomentAlgorithmDriver.C:execute", "src/SixDofSurfaceForceAndMomentAlgorithm.C:execute", "src/SixDofSurfaceForceAndMomentAlgorithm.C:pre_work"]}
{"id": "C254", "title": "Tether input and registration of six-degree-of-freedom bodies", "statement": "A list of n times nine numbers is read as n tethers in order, each number with its meaning, any other length is refused; a body gets an algorithm exactly when one of its forcing surfaces is a known part and it then covers the parts of all known ones; without one, the body's force and moment are never computed whatever its tethers are.", "quantifier": "every list of numbers, every list of surface names and part table", "why_tests_cant": "tests use one input file", "anchors": ["src/SolutionOptions.C:load", "src/EquationSystems.C:register_surface_six_dof_algorithm"]}
{"id": "C255", "title": "Hybrid turbulence stress of the element kernel", "statement": "The kernel adds to every node and component minus the net outflow of the tensor-viscosity stress (minus the anisotropic part weighted with the adaptivity parameter, plus two thirds of density times turbulent kinetic energy, once); it is conservative in every component and its matrix is the exact derivative with respect to the velocity.", "quantifier": "every element with any number of nodes, points and dimensions, every density, kinetic energy, adaptivity parameter, tensor viscosity and velocity, every previous array content", "why_tests_cant": "the unit test compares with gold values produced by the code itself on one hexahedron", "anchors": ["src/kernel/MomentumHybridTurbElemKernel.C:execute"]}
{"id": "C256", "title": "Constant element sources integrate to density times dual volume", "statement": "On every mesh the assembled body force and volumetric source at a node are the given density times the node's dual volume, the matrix is untouched; the body force is taken componentwise from the momentum parameters and their absence is an error; the monolithic momentum-continuity kernel refuses three options and otherwise fails at every execution.", "quantifier": "every mesh of elements of any kind, every force, source and parameter list", "why_tests_cant": "tests check one element", "anchors": ["src/kernel/MomentumBodyForceElemKernel.C", "src/kernel/VolumetricSrcElemKernel.C", "src/kernel/MomentumContinuityElemKernel.C"]}
{"id": "C257", "title": "Manufactured variable-density element sources", "statement": "Every sub-control volume contributes to its node the left-hand side of the continuity (momentum) equation of the manufactured solution at its integration point times its volume (over the projection time scale for continuity), nothing is added to the matrix; when the points are the nodes the assembled source is exactly what the nodal form of the source adds.", "quantifier": "every element, coordinates with finite mixture density, constants, mesh and node", "why_tests_cant": "a convergence test checks one mesh sequence", "anchors": ["src/user_functions/VariableDensityContinuitySrcElemSuppAlg.C:elem_execute", "src/user_functions/VariableDensityMixFracSrcElemSuppAlg.C:elem_execute", "src/user_functions/VariableDensityMomentumSrcElemSuppAlg.C:elem_execute"]}
{"id": "C258", "title": "Layer, tornado, channel and workshop user functions", "statement": "The fixed-height mixture fraction lies strictly between zero and one, is one half exactly on its surface and increases with height; a wave amplitude above 1e-7 makes the height parameter ineffective; parameters are taken in order with defaults. The tornado velocity is pure swirl with a height-dependent updraft in the given swirl ratio and undefined below the ground. The channel profile is bounded and changes sign at height one. The workshop field satisfies the advection equation and stays in (0,1]. The loop over points gives each point the value at its own coordinates and writes nothing else.", "quantifier": "every parameter, point and time, every number of points and strides", "why_tests_cant": "tests evaluate a few points", "anchors": ["src/user_functions/FixedHeightMixFracAuxFunction.C", "src/user_functions/TornadoAuxFunction.C", "src/user_functions/SinProfileChannelFlowVelocityAuxFunction.C", "src/user_functions/WorkshopMMSMixFracAuxFunction.C"]}
{"id": "C259", "title": "Gas dynamics convection across a non-conformal interface", "statement": "On static and moving meshes the mass (and for an inviscid gas every conserved quantity) leaving one side of an interface point is what the mirror point on the other side receives; over an interface whose points come in mirrored pairs, in any order, the interface creates no mass. Between equal uniform states the flux is exactly the Euler flux (relative to the mesh) at every Mach number, and the convected density is the upwind one.", "quantifier": "every pair of states, area vector, option, processing history and list of interface points, any dimension and element", "why_tests_cant": "regression tests run one sliding-mesh case", "anchors": ["src/gas_dynamics/AssembleGasDynamicsNonConformalAlgorithm.C:execute"]}
{"id": "C260", "title": "Gas dynamics diffusion across a non-conformal interface", "statement": "The conductive heat flux is the mean of the two sides' conductive fluxes plus a jump penalty that never heats the hotter side, and is conserved; the viscous momentum flux should be the mean Newtonian traction and be conserved.", "quantifier": "every pair of states, derivatives, normals and area vectors", "why_tests_cant": "regression tests run one sliding-mesh case at high Reynolds number", "anchors": ["src/gas_dynamics/AssembleGasDynamicsNonConformalAlgorithm.C:execute"]}
{"id": "C261", "title": "Interface fluxes do not depend on the points processed before", "statement": "The flux at an interface point depends only on the fields, not on the points processed earlier.", "quantifier": "every list of points, every initial workspace content", "why_tests_cant": "a test with one point cannot see it", "anchors": ["src/gas_dynamics/AssembleGasDynamicsNonConformalAlgorithm.C:execute"]}
{"id": "C262", "title": "Opposing face vectors are gathered correctly", "statement": "The vectors interpolated on the opposing face are the nodal vectors of that face and the gather stays within its array.", "quantifier": "every number of face nodes and components", "why_tests_cant": "needs mixed face topologies across an interface", "anchors": ["src/gas_dynamics/AssembleGasDynamicsNonConformalAlgorithm.C:execute", "src/master_element/Quad43DCVFEM.C:Quad3DSCS::interpolatePoint", "src/master_element/MasterElement.C:Tri3DSCS::interpolatePoint"]}
{"id": "C263", "title": "Line order in boundary-condition blocks is irrelevant", "statement": "The lines of a boundary-condition block, of its user data and of its user_function_name map may be written in any order; blocks keep the order of the file, one condition per block, each depending on its own lines only.", "quantifier": "every input block with distinct keys and every permutation of its lines, every conversion of scalars", "why_tests_cant": "inputs in tests use one order", "anchors": ["src/NaluParsing.C:operator>>", "src/BoundaryConditions.C:BoundaryCondition::load"]}
{"id": "C264", "title": "Every boundary-condition value lands in its own member", "statement": "After a successful decode every line of the user data given in the input is the value of the corresponding member, lines not given leave the default, for wall, inflow, overset, periodic, non-conformal and symmetry blocks; a wall velocity is read component by component.", "quantifier": "every user-data block accepted by the decoder", "why_tests_cant": "tests give a few keys", "anchors": ["src/NaluParsing.C:operator>>", "include/NaluParsing.h:WallUserData"]}
{"id": "C265", "title": "Constant value or function", "statement": "For walls and inflows a field is of constant type when a constant was given, of function type when a function name was given, and the flag that it was specified is set exactly then.", "quantifier": "every accepted user-data block", "why_tests_cant": "combinations of constants and functions are untested", "anchors": ["src/NaluParsing.C:operator>>", "src/EquationSystem.C:get_bc_data_type"]}
{"id": "C266", "title": "Which user data are accepted", "statement": "A table of statements is accepted exactly when its required keys are present and every present key converts; wall blocks with forbidden combinations are refused; unknown keys are ignored.", "quantifier": "every block, every conversion", "why_tests_cant": "finite tests", "anchors": ["src/NaluParsing.C:operator>>"]}
{"id": "C267", "title": "Open boundary user data", "statement": "Every line of the user data of an open boundary lands in its member, and flags tell whether a line was given.", "quantifier": "every open block", "why_tests_cant": "no test reads all keys", "anchors": ["src/NaluParsing.C:operator>>", "include/NaluParsing.h:OpenUserData"]}
{"id": "C268", "title": "Dispatch of boundary-condition blocks", "statement": "The kind of a boundary condition is the first kind key present in the block; a block with no known kind key is refused; a wall block yields the wall decode of its user data; non-conformal targets are those of the input.", "quantifier": "every block", "why_tests_cant": "finite tests", "anchors": ["src/BoundaryConditions.C:BoundaryCondition::load"]}
{"id": "C269", "title": "Initial conditions, linear solvers and materials as read", "statement": "Initial-condition values, solver lookup by name with its defaults and material targets are those of the input; the name comparison ignores case.", "quantifier": "every block", "why_tests_cant": "finite tests", "anchors": ["src/InitialConditions.C:InitialCondition::load", "src/MaterialPropertys.C", "src/LinearSolvers.C:LinearSolvers::load", "src/LinearSolverConfig.C:TpetraLinearSolverConfig::load"]}
{"id": "C270", "title": "Boundary conditions of the momentum equation", "statement": "For any list of boundary conditions the momentum system imposes the velocity exactly on the inflow parts and on the parts of walls without wall function, adds exactly one boundary term for every open, symmetry, non-conformal and wall-function part and none elsewhere, and lets every boundary part contribute exactly once to the nodal velocity gradient.", "quantifier": "every list of boundary conditions (any number, any order), every option set", "why_tests_cant": "tests use a handful of fixed inputs", "anchors": ["src/Realm.C:Realm::setup_bc", "src/EquationSystems.C:EquationSystems::register_wall_bc", "src/LowMachEquationSystem.C:MomentumEquationSystem::register_wall_bc", "src/LowMachEquationSystem.C:MomentumEquationSystem::register_inflow_bc"]}
{"id": "C271", "title": "The last listed boundary fixes the velocity", "statement": "At a node shared by several inflows and no-slip walls the velocity after the momentum solve is that of the boundary listed last in the input, whatever was assembled there and whatever the velocity was; when all of them take external data the transferred value is imposed.", "quantifier": "every list of boundaries, every mesh (any node/part incidence), every assembled system and every solution of it", "why_tests_cant": "corners of arbitrary inputs cannot be enumerated", "anchors": ["src/Realm.C:Realm::setup_bc", "src/EquationSystems.C:EquationSystems::register_wall_bc", "src/EquationSystems.C:EquationSystems::populate_boundary_data", "src/SolverAlgorithmDriver.C:SolverAlgorithmDriver::execute", "src/TpetraLinearSystem.C:TpetraLinearSystem::applyDirichletBCs"]}
{"id": "C272", "title": "No velocity is imposed elsewhere", "statement": "At nodes touched by no inflow and no no-slip wall the row of the momentum system is the sum of the assembled contributions; in particular walls with wall functions impose nothing.", "quantifier": "every list of boundaries, every node, every list of contributions", "why_tests_cant": "as C271", "anchors": ["src/Realm.C:Realm::setup_bc", "src/EquationSystems.C:EquationSystems::register_wall_bc", "src/SolverAlgorithmDriver.C:SolverAlgorithmDriver::execute"]}
{"id": "C273", "title": "Turbulence quantities at walls", "statement": "At a wall the turbulent kinetic energy is imposed (given value, else the wall function's) or left free (Neumann, k-sgs only) and a wall with neither is refused; where a wall function gives the value it prevails over every other boundary at shared nodes, whatever the order; the specific dissipation rate and the turbulent dissipation at wall nodes are those of the wall model; the turbulent dissipation system is accepted only if every wall has a wall function; momentum and specific dissipation rate use the same kind of wall treatment.", "quantifier": "every list of boundaries, node incidence, assembled system", "why_tests_cant": "wall/inflow corners and flag combinations", "anchors": ["src/TurbKineticEnergyEquationSystem.C:register_wall_bc", "src/SpecificDissipationRateEquationSystem.C:register_wall_bc", "src/TurbDissipationEquationSystem.C:register_wall_bc"]}
{"id": "C274", "title": "Mixture fraction and enthalpy at boundaries", "statement": "At a node of several inflows and walls with given values, the mixture fraction after the solve is the value of the last of them; the enthalpy is that of the temperature given by the last of them; a wall with a heat flux and no temperature gets a flux term, a wall with neither is adiabatic, an open boundary without a temperature is refused.", "quantifier": "every list of boundaries, node incidence, assembled system, enthalpy function", "why_tests_cant": "as C271", "anchors": ["src/MixtureFractionEquationSystem.C:register_wall_bc", "src/EnthalpyEquationSystem.C:register_wall_bc", "src/EnthalpyEquationSystem.C:temperature_bc_setup"]}
{"id": "C275", "title": "Targets of boundary conditions", "statement": "Every boundary condition acts on exactly the face sub-parts of its target, in input order, and a target that is not in the mesh is refused.", "quantifier": "every mesh and every list of blocks", "why_tests_cant": "finite tests use correct names", "anchors": ["src/Realm.C:Realm::setup_bc", "src/EquationSystems.C:EquationSystems::register_wall_bc", "src/EquationSystems.C:EquationSystems::register_symmetry_bc"]}
{"id": "C276", "title": "Imposed rows are clean", "statement": "The linear system does not depend on the order of the contributions; rows of imposed nodes are the same for all contributions; all other rows are the sums of the contributions.", "quantifier": "every Dirichlet map, every list of contributions, every node", "why_tests_cant": "tests cannot cover all orders of assembly", "anchors": ["src/SolverAlgorithmDriver.C:SolverAlgorithmDriver::execute", "src/TpetraLinearSystem.C:TpetraLinearSystem::applyDirichletBCs"]}
{"id": "C277", "title": "Solver options per degree of freedom", "statement": "For every degree of freedom the factor, flag or function used by the solver is the last one the input gives for it under the option's name or alias, and the documented default otherwise; an entry with no known option is refused.", "quantifier": "every input tree, every degree of freedom name, every list of option entries", "why_tests_cant": "the input file is an arbitrary tree; tests read a few", "anchors": ["src/SolutionOptions.C:SolutionOptions::load", "src/NaluParsing.C:operator>>", "src/Realm.C:Realm::get_hybrid_factor", "src/Realm.C:Realm::get_tanh_functional_form", "src/Realm.C:Realm::get_upw_factor"]}
{"id": "C278", "title": "Source terms accumulate", "statement": "The source terms, element source terms and their parameters in force for an equation are those of all lines of the input for it, in the order of the file, whether a line is a name or a list.", "quantifier": "every input tree, every equation", "why_tests_cant": "the input file is an arbitrary tree; tests read a few", "anchors": ["src/SolutionOptions.C:SolutionOptions::load", "src/NaluParsing.C:operator>>"]}
{"id": "C279", "title": "Turbulence model and its constants", "statement": "The model is the one whose name equals the text up to case (laminar when absent), any other text is refused, and the flow is turbulent exactly when the model is not laminar; after reading the block each of the 27 constants is available and equals the last value the input gives or the model's published default.", "quantifier": "every input tree, every constant", "why_tests_cant": "the input file is an arbitrary tree; tests read a few", "anchors": ["src/SolutionOptions.C:SolutionOptions::load", "src/NaluParsing.C:operator>>", "src/SolutionOptions.C:SolutionOptions::initialize_turbulence_constants", "src/SolutionOptions.C:SolutionOptions::get_turb_model_constant", "include/Enums.h:TurbulenceModelConstantNames"]}
{"id": "C280", "title": "Plain solver lines", "statement": "Every plain line sets its member to its value and an absent line leaves the documented default; buoyancy stabilization follows the balanced-force option unless given, shifted pressure gradients force reduced Poisson sensitivities, the dynamic procedure is accepted only with a k-sgs model, the deprecated shifted Poisson line and a missing name are refused.", "quantifier": "every input tree", "why_tests_cant": "the input file is an arbitrary tree; tests read a few", "anchors": ["src/SolutionOptions.C:SolutionOptions::load", "src/NaluParsing.C:operator>>"]}
{"id": "C281", "title": "Mesh motion, displacement and pressure reference", "statement": "Each entry must have a name and targets, a rotating one its rate; the axis is the third unless given; given centroids prevail over the request to compute them; among entries of one name the last is in force; there is mesh motion exactly when the list is given and six-dof motion exactly when an entry asks for it; the pressure reference needs a value and either a node identifier or a location with parts.", "quantifier": "every input tree", "why_tests_cant": "the input file is an arbitrary tree; tests read a few", "anchors": ["src/SolutionOptions.C:SolutionOptions::load", "src/NaluParsing.C:operator>>"]}
{"id": "C282", "title": "Swirling strength is the largest imaginary eigenvalue part", "statement": "The lambda_ci value written at every node is the largest imaginary part among the complex eigenvalues of the velocity gradient there, zero exactly when all are real.", "quantifier": "every real 2x2 and 3x3 velocity gradient", "why_tests_cant": "the gradients form a continuum, with a measure-zero failure set that tests do not hit", "anchors": ["src/TurbulenceAveragingPostProcessing.C:compute_lambda_ci"]}
{"id": "C283", "title": "Mean resolved kinetic energy", "statement": "The printed mean is the volume-weighted mean of half the squared speed over the selected nodes, independent of decomposition and order, within the range of nodal values and nonnegative.", "quantifier": "every decomposition, node set, volumes and velocities", "why_tests_cant": "the number of ranks and nodes is unbounded", "anchors": ["src/TurbulenceAveragingPostProcessing.C:compute_mean_resolved_ke"]}
{"id": "C284", "title": "Dissipation rate is nonnegative", "statement": "At an integration point it is twice the viscosity times the squared strain of the fluctuation (minus a third of the squared divergence for Favre means), zero for rigid motion; after any history of calls the element value is nonnegative and the nodal projection lies within the range of the surrounding elements.", "quantifier": "every history of calls, mesh patch, fields with positive density and nonnegative viscosity, n <= 3", "why_tests_cant": "histories and meshes are unbounded", "anchors": ["src/TurbulenceAveragingPostProcessing.C:compute_dissipation_rate"]}
{"id": "C285", "title": "Dissipation rate is a time mean", "statement": "The element dissipation rate is the time mean of the sampled rate over the averaging window.", "quantifier": "every sequence of time steps and element states of a fresh run", "why_tests_cant": "histories are unbounded", "anchors": ["src/TurbulenceAveragingPostProcessing.C:compute_dissipation_rate", "src/TurbulenceAveragingPostProcessing.C:execute"]}
{"id": "C286", "title": "Production contracts the full stress", "statement": "Production is minus mean density times the contraction of the stored symmetric stress with the mean-velocity gradient; the nodal value is the volume mean over surrounding elements; Favre averages are used exactly when velocity is Favre-averaged, and it is refused exactly when the needed stress is not averaged.", "quantifier": "every patch, symmetric stress in packed storage, n = 2, 3; every list of averaged fields", "why_tests_cant": "fields and patches form a continuum", "anchors": ["src/TurbulenceAveragingPostProcessing.C:compute_production"]}
{"id": "C287", "title": "Dynamic procedure is realisable", "statement": "On every admissible patch the test-filter kinetic energy is nonnegative before clipping, the subtest stress is positive semidefinite, the dissipation constant is nonnegative before clipping for nonnegative effective viscosity and at least 1e-16 after.", "quantifier": "every patch of elements with positive volumes and density", "why_tests_cant": "patches and flows are unbounded", "anchors": ["src/TurbKineticEnergyEquationSystem.C:compute_filtered_quantities"]}
{"id": "C288", "title": "Clipped viscosity constant keeps effective viscosity positive", "statement": "Laminar plus turbulent viscosity is at least (1 - clipping factor) times laminar, whatever the flow; the clip only raises the constant and is inactive when the bound already holds.", "quantifier": "every patch, density, volume, viscosity, kinetic energy, damping in [0,1], clipping factor >= 0", "why_tests_cant": "the flow is arbitrary", "anchors": ["src/TurbKineticEnergyEquationSystem.C:compute_filtered_quantities", "src/TurbViscKsgsAlgorithm.C:TurbViscKsgsAlgorithm::execute"]}
{"id": "C289", "title": "Dynamic constants are Galilean invariant", "statement": "Adding one constant velocity to the flow changes neither dynamic constant, and in a uniform flow the viscosity constant is zero and the dissipation constant is at its floor.", "quantifier": "every patch, flow and frame velocity", "why_tests_cant": "flows and frames form a continuum", "anchors": ["src/TurbKineticEnergyEquationSystem.C:compute_filtered_quantities"]}
{"id": "C290", "title": "Low-Reynolds source", "statement": "The nodal squared gradient of the root of the kinetic energy is nonnegative, zero for constant kinetic energy, and the exact squared slope when the root is linear and the sub-control volumes of the node add up to its dual volume.", "quantifier": "every patch and kinetic-energy field", "why_tests_cant": "fields form a continuum", "anchors": ["src/TurbKineticEnergyEquationSystem.C:compute_dsqrtk_dx_sq"]}
{"id": "C291", "title": "Graph rows tile the column array", "statement": "From any list of row lengths the linear-system graph lays the rows out one after the other: row i starts at the sum of the lengths before it, has exactly its length, no two rows overlap and all slots lie inside the allocated array.", "quantifier": "every list of row lengths", "why_tests_cant": "the number of rows and their lengths are unbounded; an overlap corrupts a neighbouring row only on some meshes", "anchors": ["include/LinearSolver.h:LocalGraphArrays::compute_row_pointers", "include/LinearSolver.h:LocalGraphArrays::get_row_length"]}
{"id": "C292", "title": "All components of a node couple to the same columns", "statement": "In a system with several unknowns per node, after the graph is completed each component row of a node holds exactly the columns of the node's first row, in the same order.", "quantifier": "every number of components, nodes, row lengths and row contents", "why_tests_cant": "number of nodes and components unbounded; the copies overlap in memory for wrong offsets only", "anchors": ["src/TpetraLinearSystem.C:fill_in_extra_dof_rows_per_node"]}
{"id": "C293", "title": "No unused slot is left in the matrix graph", "statement": "After the graph is finalised every row consists of exactly the columns inserted into it, in order, and no placeholder column remains; lengths and pointers agree with the rows.", "quantifier": "every number of rows, lengths and contents in which columns precede unused slots", "why_tests_cant": "rows and contents are unbounded", "anchors": ["src/TpetraLinearSystem.C:remove_invalid_indices", "src/TpetraLinearSystem.C:TpetraLinearSystem::finalizeLinearSystem"]}
{"id": "C294", "title": "Owners receive exactly the couplings other processes add to their rows", "statement": "The records the owner of a row reads are exactly those packed for it, in order; a process sends a record (row of a, column of b, owner of b) to the owner of a for precisely the couplings it inserts into rows of unknowns it shares but does not own.", "quantifier": "every number of processes, every mesh, numbering and connection lists", "why_tests_cant": "numbers of processes and records are unbounded", "anchors": ["src/TpetraLinearSystem.C:add_lengths_to_comm", "src/TpetraLinearSystem.C:communicate_remote_columns", "src/TpetraLinearSystem.C:insert_communicated_col_indices", "src/TpetraLinearSystem.C:compute_graph_row_lengths"]}
{"id": "C295", "title": "The owner's row holds local and received columns", "statement": "Every component of an owned node gets room for every local and every received column, and after all insertions its row holds exactly the locally inserted and the received columns, sorted and each once.", "quantifier": "every mesh, set of received records, number of components", "why_tests_cant": "records and meshes are unbounded", "anchors": ["src/TpetraLinearSystem.C:communicate_remote_columns", "src/TpetraLinearSystem.C:insert_communicated_col_indices", "include/LinearSolver.h:LocalGraphArrays::insertIndices"]}
{"id": "C296", "title": "Column map lists every needed unknown once with its owner", "statement": "The column map of a process is its owned ids, then its shared ids, then the other reported ids grouped by owner; no id occurs twice, every reported id is present, and for each id not owned here the recorded process is the reported one and never this process.", "quantifier": "every set of owned, shared and reported ids with consistent owners", "why_tests_cant": "sets of ids are unbounded", "anchors": ["src/TpetraLinearSystem.C:fill_owned_and_shared_then_nonowned_ordered_by_proc", "src/TpetraLinearSystem.C:TpetraLinearSystem::storeOwnersForShared"]}
{"id": "C297", "title": "Columns of a node are consecutive and aligned", "statement": "In the column map the components of every node occupy consecutive columns starting at a multiple of the number of components, whichever mixture of owned, shared and remote nodes the process sees.", "quantifier": "every number of components, processes and ids", "why_tests_cant": "ids and owners are unbounded; misalignment would corrupt rows only for some numberings", "anchors": ["src/TpetraLinearSystem.C:fill_owned_and_shared_then_nonowned_ordered_by_proc", "src/TpetraLinearSystem.C:TpetraLinearSystem::fill_entity_to_col_LID_mapping"]}
{"id": "C298", "title": "Every element coupling has a slot at the owner", "statement": "If two nodes belong to one element, face, edge or interface pair on any process and the first is owned elsewhere, then after the exchange the owner's matrix row for the first contains the column of the second.", "quantifier": "every number of processes, meshes with periodic images, numbers of components", "why_tests_cant": "a missing coupling is silently dropped, and only for particular decompositions", "anchors": ["src/TpetraLinearSystem.C:TpetraLinearSystem::finalizeLinearSystem", "src/TpetraLinearSystem.C:TpetraLinearSystem::compute_graph_row_lengths", "src/TpetraLinearSystem.C:insert_communicated_col_indices"]}
{"id": "C299", "title": "Message buffers are large enough", "statement": "For every destination the space reserved in the send buffer is at least the bytes packed into it.", "quantifier": "every process, destination, connection lists and integer widths", "why_tests_cant": "connection lists are unbounded", "anchors": ["src/TpetraLinearSystem.C:TpetraLinearSystem::compute_send_lengths", "src/TpetraLinearSystem.C:add_lengths_to_comm"]}
{"id": "C300", "title": "Each graph builder announces what its algorithm assembles", "statement": "The reduced-stencil, face-element, non-conformal and overset graph builders produce rows into which every contribution of the corresponding algorithm can be summed without losing an entry.", "quantifier": "every element set, sub-control surface, interface pairing, donor assignment, numbering and number of components", "why_tests_cant": "interfaces and donors change during the run and are unbounded", "anchors": ["src/TpetraLinearSystem.C:TpetraLinearSystem::buildReducedElemToNodeGraph", "src/TpetraLinearSystem.C:TpetraLinearSystem::buildFaceElemToNodeGraph", "src/TpetraLinearSystem.C:TpetraLinearSystem::buildNonConformalNodeGraph", "src/TpetraLinearSystem.C:TpetraLinearSystem::buildOversetNodeGraph"]}
{"id": "C301", "title": "Velocity and pressure mirror the monolithic unknown", "statement": "Unloading the monolithic unknown gives each node its own velocity components and pressure, loading is its inverse, and neither writes anywhere else.", "quantifier": "every dimension, number of nodes and field contents", "why_tests_cant": "bucket sizes and dimensions enter the index arithmetic; an overlap corrupts a neighbour only for some sizes", "anchors": ["src/LowMachMonolithicEquationSystem.C:copy_uvwp_to_uvw_p", "src/LowMachMonolithicEquationSystem.C:copy_uvw_p_to_uvwp"]}
{"id": "C302", "title": "Velocity and pressure follow the monolithic unknown through every step", "statement": "From the start of a step to its end velocity and pressure are the components of the unknown, the unknown advances by the sum of the solver increments, and data written into velocity or pressure before the step has no effect.", "quantifier": "every history of steps, solver increments and external data", "why_tests_cant": "histories are unbounded", "anchors": ["src/LowMachMonolithicEquationSystem.C:predict_state", "src/LowMachMonolithicEquationSystem.C:pre_timestep_work", "src/LowMachMonolithicEquationSystem.C:solve_and_update", "src/TimeIntegrator.C:TimeIntegrator::integrate_realm"]}
{"id": "C303", "title": "Old velocity of the monolithic system", "statement": "In every step the old velocity used for the time derivative is the velocity of the old unknown.", "quantifier": "every history of steps, with and without restart", "why_tests_cant": "histories and restart points are unbounded", "anchors": ["src/LowMachMonolithicEquationSystem.C:initial_work", "src/LowMachMonolithicEquationSystem.C:register_nodal_fields", "src/LowMachMonolithicEquationSystem.C:predict_state"]}
{"id": "C304", "title": "Averaged variables are the user's, completed", "statement": "The Reynolds and Favre lists are the user's lists in order without density, completed by velocity exactly when a quantity that needs it is requested and it is not listed; nothing is repeated unless the user repeats it.", "quantifier": "every specification", "why_tests_cant": "combinations of lists and switches are unbounded", "anchors": ["src/TurbulenceAveragingPostProcessing.C:load"]}
{"id": "C305", "title": "Which averaging input is accepted", "statement": "The block is accepted exactly if the averaging type is absent or known, specifications are given and each has a name and targets; the infos are those of the specifications in order.", "quantifier": "every input block", "why_tests_cant": "inputs are unbounded", "anchors": ["src/TurbulenceAveragingPostProcessing.C:load"]}
{"id": "C306", "title": "Set-up registers every averaged field", "statement": "After set-up every requested special field, the mean density and each mean field exist on each target part under the documented name with the number of components of the variable, are restart variables, and the pairs averaged per step are the density and the listed variables in order; missing parts and variables and 2-D sub-filter stresses are refused, everything else is accepted.", "quantifier": "every list of specifications, mesh and registered fields", "why_tests_cant": "specifications, parts and fields are unbounded", "anchors": ["src/TurbulenceAveragingPostProcessing.C:setup", "src/TurbulenceAveragingPostProcessing.C:register_field_from_primitive", "src/TurbulenceAveragingPostProcessing.C:construct_pair", "src/TurbulenceAveragingPostProcessing.C:register_field"]}
{"id": "C307", "title": "Each mean is updated once per step", "statement": "If no variable is listed twice the mean fields of a block are distinct and each receives exactly one update per step; two blocks share no mean field if neither name ends in an underscore followed by the other.", "quantifier": "every specification and pair of block names, every state", "why_tests_cant": "names and lists are unbounded", "anchors": ["src/TurbulenceAveragingPostProcessing.C:setup", "src/TurbulenceAveragingPostProcessing.C:execute"]}
{"id": "C308", "title": "Mean fields read by derived quantities exist", "statement": "Every mean field that turbulent kinetic energy, the stresses, production or the dissipation rate read is registered.", "quantifier": "every accepted specification, mesh and target", "why_tests_cant": "specifications are unbounded", "anchors": ["src/TurbulenceAveragingPostProcessing.C:load", "src/TurbulenceAveragingPostProcessing.C:setup", "src/TurbulenceAveragingPostProcessing.C:compute_dissipation_rate", "src/TurbulenceAveragingPostProcessing.C:compute_production"]}
{"id": "C309", "title": "Each item creates the named equation system", "statement": "An item with one known key is loaded as that system exactly if its options convert and the required entries are present; every option has the user's value or its default; unknown names are refused.", "quantifier": "every item and conversion of texts", "why_tests_cant": "items are unbounded", "anchors": ["src/EquationSystems.C:EquationSystems::load", "include/EquationSystem.h:EquationSystem::load"]}
{"id": "C310", "title": "Equation systems are created in order with their solver", "statement": "There is one system per item in file order, the volume-of-fluid options stay in force for the run, each equation gets the solver specified for it and an equation without solver is refused.", "quantifier": "every list of items and solver specifications", "why_tests_cant": "lists are unbounded", "anchors": ["src/EquationSystems.C:EquationSystems::load", "src/EquationSystems.C:EquationSystems::get_solver_block_name"]}
{"id": "C311", "title": "Serialized IO group size divides the number of processes", "statement": "A group size is accepted exactly if it is zero or a positive divisor of the number of processes.", "quantifier": "every number of processes and group size", "why_tests_cant": "process counts are unbounded", "anchors": ["src/Simulation.C:Simulation::setSerializedIOGroupSize"]}
{"id": "C312", "title": "Input/output realm registers what is asked for", "statement": "A field specification needs name, integer size, type and targets; registration succeeds exactly if all are nodal and all targets exist, and then exactly these fields exist on these parts with this size, as vectors precisely if velocity occurs in the name.", "quantifier": "every list of specifications and parts", "why_tests_cant": "lists are unbounded", "anchors": ["src/InputOutputRealm.C:InputOutputRealm::load", "src/InputOutputRealm.C:InputOutputRealm::register_io_fields"]}
{"id": "C313", "title": "What a transfer block means", "statement": "A transfer block is accepted exactly if it names two realms, gives the mesh parts in exactly one of the two styles, has well-formed clip limits, and has either transfer variables in pairs or a known coupling, not both; then realms, parts, objective, field pairs and limits are the ones written, the last limits for a field winning.", "quantifier": "every input block", "why_tests_cant": "input blocks are unbounded and the checks interact", "anchors": ["src/xfer/Transfer.C:Transfer::load"]}
{"id": "C314", "title": "Every transfer is handed to exactly one realm", "statement": "The transfers of a file are accepted exactly if every one has existing realms, a known objective and parts that exist on the meshes; then each is in exactly one queue of one realm - the sender's for multi-physics and initialization, the receiver's for output and external data - and each queue is in file order.", "quantifier": "every list of realms and transfers", "why_tests_cant": "any number of realms, transfers, parts and repeated names", "anchors": ["src/xfer/Transfer.C:Transfer::breadboard", "src/Realm.C:Realm::augment_transfer_vector", "include/Realms.h:Realms::find_realm", "src/xfer/Transfers.C:Transfers::breadboard"]}
{"id": "C315", "title": "Search set-up order of transfers", "statement": "All coarse searches run on the unmodified meshes, meshes are modified by one transfer at a time between begin and end on the sender's mesh, elements are ghosted after that transfer's coarse search, local searches follow all ghosting, and each is done exactly once per transfer.", "quantifier": "every number of transfers and assignment of realms", "why_tests_cant": "any number of transfers may share realms in both directions", "anchors": ["src/xfer/Transfers.C:Transfers::initialize"]}
{"id": "C316", "title": "How often a transfer is executed in a run", "statement": "In a run of n steps an initialization transfer is executed once, an external-data transfer n+1 times, an output transfer once per output step including the start, a multi-physics transfer once per nonlinear iteration of each step in which its sender is solved and once more at a restart; a transfer whose owner is not integrated is never executed; within a step external data come first and output last.", "quantifier": "every number of steps, frequencies, iterations, restart count and realm list", "why_tests_cant": "runs are unbounded", "anchors": ["src/TimeIntegrator.C:TimeIntegrator::integrate_realm", "src/Realm.C:Realm::process_io_transfer", "src/Realm.C:Realm::process_multi_physics_transfer", "src/Realm.C:Realm::process_external_data_transfer", "src/Realm.C:Realm::process_initialization_transfer"]}
{"id": "C317", "title": "Which element terms an equation gets", "statement": "With element kernels, an equation ends up with one assembly per element topology, on exactly the parts of that topology, each once, containing exactly the offered terms the user listed, in a fixed order; a list is accepted exactly if it exists, every listed term is offered for this equation (or was before), and the topology supports terms; no listed term is dropped silently unless an earlier realm offered it.", "quantifier": "every list of parts and topologies, of offered terms and of requested terms, and every earlier history of offers", "why_tests_cant": "lists of parts and terms are unbounded and the log of valid names is shared state", "anchors": ["include/kernel/KernelBuilder.h:build_topo_kernel_if_requested", "src/kernel/KernelBuilderLog.C:KernelBuilderLog", "src/EquationSystem.C:report_invalid_supp_alg_names"]}
{"id": "C318", "title": "Element terms are compiled for the element they run on", "statement": "For every topology for which a kernel is built, the compile-time dimension, node count and point counts are those of the master elements used at run time; and the kernels on a side are those of that side and its element.", "quantifier": "every topology and every pair of side and element", "why_tests_cant": "the tables are independent in the code and must agree entry by entry", "anchors": ["include/AlgTraits.h:AlgTraits", "include/kernel/KernelBuilder.h:build_topo_kernel", "include/kernel/KernelBuilder.h:build_face_elem_topo_kernel"]}
{"id": "C319", "title": "One master element per topology", "statement": "Requests for the same element return the same object until the repository is cleared, different elements are different objects, a request succeeds exactly for the supported topologies whatever was requested before, and objects handed out before a clear are never handed out again.", "quantifier": "every history of requests and clears", "why_tests_cant": "histories are unbounded", "anchors": ["src/master_element/MasterElementFactory.C:MasterElementRepo"]}
{"id": "C320", "title": "The mass review and the pressure equation agree on accumulation", "statement": "With the element-based scheme and one key per option, the mass-balance review contains a density accumulation exactly if the continuity equation contains a density time term, and evaluates it as one of those terms is evaluated (lumped or not); the same holds for the edge-based scheme if no element terms are given.", "quantifier": "every list of solution options", "why_tests_cant": "options, blocks and names are unbounded lists, read twice by different code", "anchors": ["src/ComputeMdotAlgorithmDriver.C:ComputeMdotAlgorithmDriver", "src/SolutionOptions.C:load", "src/LowMachEquationSystem.C:register_interior_algorithm"]}
{"id": "C321", "title": "Optional blocks are found wherever they are written", "statement": "The search for a block finds exactly the maps having the key, each once, enclosing before enclosed and otherwise in file order; the block is created exactly if there is one, the input is refused with two or more.", "quantifier": "every input tree", "why_tests_cant": "trees are unbounded", "anchors": ["include/NaluParsingHelper.h:find_nodes_given_key", "src/Realm.C:look_ahead_and_creation"]}
{"id": "C322", "title": "The debug check finds every empty row", "statement": "If every row is owned by one rank, the check on rank 0 reports a zero row exactly if some row on some rank has entries of total magnitude below the tolerance, and the message names its node and component.", "quantifier": "every number of ranks, rows and values", "why_tests_cant": "the row may be on any rank", "anchors": ["src/TpetraLinearSystem.C:checkForZeroRow"]}
{"id": "C323", "title": "What the scaled residual is relative to", "statement": "In every history of time steps and solves the scaled residual is the residual of the last solve relative to the first solve of the current time step, at least relative to machine epsilon; the first solve has scaled residual one, and a later one is converged exactly if its norm fell below the tolerance times the first.", "quantifier": "every history of time steps and solves", "why_tests_cant": "histories are unbounded", "anchors": ["src/TpetraLinearSystem.C:solve", "src/EquationSystem.C:pre_timestep_work"]}
{"id": "C324", "title": "Solving many species and many directions", "statement": "A pass over the mass fractions solves each but the last once, each from its own current, old and boundary values with the earlier ones already advanced, and changes nothing else; the reported residual is the mean of the last pass, scaled by the mean of the last pass of the first nonlinear iteration; the radiation solve stops after the first pass meeting the tolerance or at its limit, with the reference of the first pass of the step.", "quantifier": "every number of species, passes, iterations and every solver", "why_tests_cant": "the solver is arbitrary and all counts are unbounded", "anchors": ["src/MassFractionEquationSystem.C:solve_and_update", "src/MassFractionEquationSystem.C:system_is_converged", "src/pmr/RadiativeTransportEquationSystem.C:solve_and_update"]}
{"id": "C325", "title": "Scalar assemblies read the gradient of the field they read", "statement": "In every run of a scalar equation on a fixed mesh, over any number of time steps, calls and passes and whatever the solver returns, every assembly reads the projected gradient of exactly the unknown it reads; pass k of a call reads the unknown after exactly k updates of that call; in general (moving mesh, changing boundary enthalpy) all passes but the first of each call are still current, and the first reads the gradient left by the last earlier call.", "quantifier": "every history of time steps and calls, every number of passes, every solver result, every mesh motion", "why_tests_cant": "histories and solver results are unbounded; a stale gradient gives plausible numbers", "anchors": ["src/MixtureFractionEquationSystem.C:solve_and_update", "src/HeatCondEquationSystem.C:solve_and_update", "src/EnthalpyEquationSystem.C:solve_and_update", "src/TurbKineticEnergyEquationSystem.C:solve_and_update", "src/VolumeOfFluidEquationSystem.C:solve_and_update", "src/Realm.C:swap_states", "src/TimeIntegrator.C:integrate_realm"]}
{"id": "C326", "title": "Finite element mixture fraction: gradient current between calls, frozen inside", "statement": "After every call of the finite element mixture-fraction equation the gradient is that of the current unknown; within a call all passes read one gradient, so every assembly is current with one pass per call on a fixed mesh.", "quantifier": "every history of time steps and calls, every number of passes and solver result", "why_tests_cant": "histories are unbounded", "anchors": ["src/MixtureFractionFemEquationSystem.C:solve_and_update"]}
{"id": "C327", "title": "Two-equation turbulence: Jacobi coupling, current gradients, coefficients of the first pass", "statement": "In every pass of the k-omega and k-epsilon systems both equations are assembled from the same fields; on a fixed mesh both gradients are those of the unknowns read; blending, diffusion coefficients and wall values are those of the fields of the first pass of the call for all its passes.", "quantifier": "every history of calls, every number of passes and every solver result", "why_tests_cant": "histories are unbounded", "anchors": ["src/ShearStressTransportEquationSystem.C:solve_and_update", "src/KEpsilonEquationSystem.C:solve_and_update"]}
{"id": "C328", "title": "Momentum advects with the flow rates the pressure equation made conservative", "statement": "In every run of the low Mach system the mass flow rates a momentum assembly reads are those formed from exactly what the last continuity assembly read (relative velocity, density, mesh, pressure gradient) with the pressure its solve produced; every assembly reads the relative velocity of the velocity it reads; on a fixed mesh every momentum and continuity assembly reads the gradients of the pressure and velocity it reads.", "quantifier": "every history of time steps, mesh motions, calls and passes, every solver result", "why_tests_cant": "histories are unbounded and the coupling crosses time steps and calls", "anchors": ["src/LowMachEquationSystem.C:solve_and_update", "src/LowMachEquationSystem.C:project_nodal_velocity", "src/LowMachEquationSystem.C:initial_work", "src/Realm.C:compute_vrtm", "src/Realm.C:advance_time_step"]}
{"id": "C329", "title": "Finite element momentum advects with the flux of the last continuity equation", "statement": "In every run of the finite element low Mach system, over time steps, mesh motions, calls and passes, the velocity and pressure gradient a momentum assembly builds its advecting flux from are exactly those the last continuity assembly read, with the pressure that solve produced; the first momentum assembly uses the initial fields; relative velocities are always current and pressure gradients are current on a fixed mesh.", "quantifier": "every history of time steps, mesh motions, calls and passes, every solver result", "why_tests_cant": "histories are unbounded and the lagged copies cross calls and steps", "anchors": ["src/LowMachFemEquationSystem.C:solve_and_update", "src/LowMachFemEquationSystem.C:copy_lagged", "src/kernel/MomentumAdvFemKernel.C:MomentumAdvFemKernel"]}
{"id": "C330", "title": "Gas dynamics works on one consistent state", "statement": "For a perfect gas, in every run of the explicit gas dynamics and at every node, after any history of time steps and sweeps the velocity, pressure, temperature, enthalpies, speed of sound and Mach number are those of the current density, momentum and total energy; Dirichlet nodes keep the user's velocity, pressure and temperature; sweeps within a step do not accumulate.", "quantifier": "every history of time steps and sweeps, every residual", "why_tests_cant": "histories are unbounded", "anchors": ["src/gas_dynamics/GasDynamicsEquationSystem.C:initial_work", "src/gas_dynamics/GasDynamicsEquationSystem.C:update_gas_dynamics", "src/gas_dynamics/GasDynamicsEquationSystem.C:predict_state"]}
{"id": "C331", "title": "Temperature, enthalpy and properties belong together", "statement": "In every run every sweep over the equation systems starts with properties evaluated from exactly the temperature and composition it starts with, whatever transfers wrote before; after every advance with a sweep the properties belong to the temperature and composition, the temperature is the one extracted from the enthalpy, and the enthalpy carries the boundary values of the current composition; so with an exact extraction the enthalpy is that of the temperature.", "quantifier": "every history of advances, sweeps and outside writes, every solver result", "why_tests_cant": "histories are unbounded", "anchors": ["src/EquationSystems.C:solve_and_update", "src/EnthalpyEquationSystem.C:post_iter_work_dep", "src/Realm.C:advance_time_step", "src/Realm.C:evaluate_properties"]}
{"id": "C332", "title": "Which start value wins", "statement": "For any number of realms, an entry not written by an initialization transfer starts with the restart value, else the mesh-file value (only if not restarted), else the boundary value, else the initial condition; initialization transfers read finished values; without mesh-file input the run starts at the latest of the start time and all restart times.", "quantifier": "every number of realms, every set of entries written by each stage", "why_tests_cant": "the number of realms and the combinations of sources are unbounded", "anchors": ["src/TimeIntegrator.C:integrate_realm", "src/Realm.C:populate_initial_condition", "src/Realm.C:boundary_data_to_state_data", "src/Realm.C:populate_variables_from_input", "src/Realm.C:populate_restart"]}
{"id": "C333", "title": "Interfaces and matrix graph follow the moving mesh", "statement": "Whatever moves, the matrix graph is at all times the one of the interface matching and overset connectivity in use; without mesh deformation, geometry, matching and connectivity belong to the present coordinates from the first time step on; with deformation the geometry is current at the beginning of every time step.", "quantifier": "every combination of motion options and every history of coordinates", "why_tests_cant": "histories of coordinates are unbounded", "anchors": ["src/Realm.C:initialize", "src/Realm.C:pre_timestep_work", "src/Realm.C:initial_work", "src/EquationSystems.C:reinitialize_linear_system"]}
{"id": "C334", "title": "What a solve leaves at the nodes", "statement": "After a linear solve, on every process that owns or shares it, every active node where the field lives holds exactly the entry of the global solution vector that belongs to its own row, or to its periodic monarch's; the copy never stops with an error, and the result does not depend on how the mesh is distributed or on what the correction field held before.", "quantifier": "every distributed mesh with periodic pairs, every number of unknowns per node, every solution vector, every earlier field", "why_tests_cant": "numberings, partitions and periodic pairings are unbounded", "anchors": ["src/TpetraLinearSystem.C:copy_tpetra_to_stk", "src/EquationSystem.C:assemble_and_solve", "src/LinearSystem.C:sync_field", "src/PeriodicManager.C:apply_constraints"]}
{"id": "C335", "title": "Nodes the solve does not know keep their old correction", "statement": "The correction of an active node advances its value by exactly the successive solutions; a node without a row (inactive through overset hole cutting, or where the field is not defined) keeps the correction it had last, so it re-adds that correction in every further iteration and its value stays put only if that correction was zero.", "quantifier": "every number of iterations, every sequence of solutions and earlier fields", "why_tests_cant": "the number of iterations is unbounded", "anchors": ["src/TpetraLinearSystem.C:copy_tpetra_to_stk", "src/EquationSystem.C:assemble_and_solve", "src/FieldFunctions.C:field_axpby"]}
{"id": "C336", "title": "Coordinates handed to the multigrid preconditioner", "statement": "For an equation with one unknown per node every owned row of the coordinate vector given to the preconditioner holds the coordinate of its own node and nothing else is written. With several unknowns per node this is false of the code: the coordinate of node n goes to the row whose global id equals n, and rows whose global id is no owned node id stay zero.", "quantifier": "every distributed mesh, every number of unknowns per node, every coordinate field", "why_tests_cant": "numberings are unbounded", "anchors": ["src/TpetraLinearSystem.C:copy_stk_to_tpetra", "src/TpetraLinearSystem.C:solve"]}
{"id": "C337", "title": "Every wall point works with its own sampling point, distance and law", "statement": "With distinct walls each integration point of each face reads exactly the sampling point made for it: at the projected distance of its wall, against its normal, with the wall model its wall asked for; points are numbered without repetition; a reader stops exactly for a wall name nobody registered. The points are those of the first call on a fixed mesh and of the present geometry on a moving one. The friction velocity depends only on the slip along the wall, and with the log law it is the law's solution from above within the tolerance.", "quantifier": "every list of walls, faces and integration points, every sequence of geometries, all fluid states", "why_tests_cant": "lists and call sequences are unbounded; the pairing rests on two traversals keeping step", "anchors": ["src/ComputeWallFrictionVelocityProjectedAlgorithm.C:construct_bounding_points", "src/ComputeWallFrictionVelocityProjectedAlgorithm.C:execute", "src/ComputeWallFrictionVelocityProjectedAlgorithm.C:initialize", "src/LowMachEquationSystem.C:register_wall_bc"]}
{"id": "C338", "title": "The velocity sampled by the projected wall function", "statement": "In every run the friction velocity, the reported force and every momentum assembly from the second iteration of a step on read at the sampling point exactly the velocity its owner holds, on every rank. The first momentum assembly of a step reads the velocity of the end of the last step, except where the sampled node is only ghosted: there it reads the velocity from S-1 steps earlier (S states), so the first iteration agrees between decompositions only if those velocities are equal.", "quantifier": "every number of states, steps and iterations, every solver result, fixed or moving mesh, both kinds of node", "why_tests_cant": "histories are unbounded and the fault shows only in parallel", "anchors": ["src/AssembleMomentumElemWallFunctionProjectedSolverAlgorithm.C:execute", "src/ComputeWallFrictionVelocityProjectedAlgorithm.C:execute", "src/LowMachEquationSystem.C:solve_and_update", "src/LowMachEquationSystem.C:predict_state", "src/FieldFunctions.C:field_copy"]}
{"id": "C339", "title": "A sampling point inside the mesh is found", "statement": "If a sampling point lies in some element, whichever rank owns it, the search of the projected wall function does not stop the run, and the point gets an element at least as near as that one (when that one is within the starting bound); every element looked at on a rank is its own or sent by its owner, and nothing else is sent.", "quantifier": "every mesh, distribution, set of points, nonnegative box expansion", "why_tests_cant": "geometries and distributions are unbounded", "anchors": ["src/ComputeWallFrictionVelocityProjectedAlgorithm.C:construct_bounding_boxes", "src/ComputeWallFrictionVelocityProjectedAlgorithm.C:coarse_search", "src/ComputeWallFrictionVelocityProjectedAlgorithm.C:complete_search"]}
{"id": "C340", "title": "Log file names, and what happens to the input file", "statement": "Without --log-file the log is called like the input file with its extension replaced by .log (or .log appended), and the input is read unchanged as long as the two names differ. If the extension of the input is log, the input is emptied before it is read. A missing input file ends the program with the code of success.", "quantifier": "every input name, log name and file system", "why_tests_cant": "names are unbounded; the destructive case needs a particular name", "anchors": ["nalu.C:main", "src/NaluEnv.C:set_log_file_stream", "src/NaluEnv.C:set_base_name"]}
{"id": "C341", "title": "Who writes into which output file", "statement": "The log holds exactly what the first process writes with naluOutputP0 (or std::cout), in its order. With --pprint each of at least two processes has a file of its own, named by log, number of processes and zero-filled rank, all names of one length and sorted by rank, holding exactly what it writes with naluOutput; without it this goes to its standard output.", "quantifier": "every number of processes, every interleaving of writes", "why_tests_cant": "interleavings and process counts are unbounded", "anchors": ["src/NaluEnv.C:NaluEnv", "src/NaluEnv.C:set_log_file_stream", "src/NaluEnv.C:naluOutput", "src/NaluEnv.C:naluOutputP0"]}
{"id": "C342", "title": "Which post-processing input is accepted", "statement": "An item is accepted exactly if type, physics, output file and targets are given and everything given converts; frequency defaults to 10 and parameters to none; one value may stand for a list. The block gives one entry per item in order.", "quantifier": "every input block", "why_tests_cant": "inputs are unbounded", "anchors": ["src/PostProcessingInfo.C:load"]}
{"id": "C343", "title": "Wetted-wall initialisation", "statement": "With the option on, every level of the volume fraction starts as one nearer to a wall than the given distance and zero elsewhere, whatever initial condition, mesh file, restart file or transfer gave; off, these decide. On a restart the restarted volume fraction is therefore lost, and unless a turbulence model restarts the wall distance the whole domain is filled.", "quantifier": "every option, start-up input and number of states", "why_tests_cant": "restart situations are not unit tested", "anchors": ["src/VolumeOfFluidEquationSystem.C:wetted_wall_init", "src/VolumeOfFluidEquationSystem.C:populate_derived_quantities", "src/TimeIntegrator.C:integrate_realm", "src/Realm.C:populate_variables_from_input"]}
{"id": "C344", "title": "Variance and dissipation of the mixture fraction", "statement": "The variance is the constant times the squared filter width times the squared gradient, the dissipation twice the diffusivity times the squared gradient, neither negative for physical inputs; the scaled variance is the variance over z(1-z) cut off at one, always in [0,1], and zero where z(1-z) is at most 1e-6, where it can jump by one.", "quantifier": "every dimension, bucket, gradient, mixture fraction, constant", "why_tests_cant": "real inputs are unbounded", "anchors": ["src/MixtureFractionEquationSystem.C:compute_scalar_var_diss"]}
{"id": "C345", "title": "The checks of a linear system in debug mode", "statement": "In debug mode every process gets to the solver exactly if no entry of matrix or right-hand side is a NaN and no row, on whichever process, is zero up to 1e-10. But a process stops only for its own NaNs, leaving the others waiting in a reduction, and a zero row stops only the first process while the others go on.", "quantifier": "every number of processes, distribution of rows and values", "why_tests_cant": "distributions and values are unbounded; the hang shows only in parallel", "anchors": ["src/TpetraLinearSystem.C:checkForNaN", "src/TpetraLinearSystem.C:checkForZeroRow", "src/TpetraLinearSystem.C:solve"]}
{"id": "C346", "title": "B-spline tables survive writing and reading", "statement": "Writing a spline of any dimension into a new group succeeds, changes nothing outside it, and reading the group back, with whatever was written elsewhere in the file since, gives the same knots, control points, bounds and orders of all one-dimensional splines in the same order, however many there are (also over ten thousand, past the zero fill of the group names). Writing twice into one group is refused.", "quantifier": "every dimension, number of splines, contents, path and file", "why_tests_cant": "tables and dimensions are unbounded", "anchors": ["src/tabular_props/BSpline.C:write_hdf5", "src/tabular_props/BSpline.C:read_hdf5", "src/tabular_props/H5IO.C:write_attribute", "src/tabular_props/H5IO.C:read_attribute", "src/tabular_props/H5IO.C:create_group", "src/tabular_props/H5IO.C:open_group", "src/tabular_props/H5IO.C:read_dataset", "src/tabular_props/HDF5FilePtr.C"]}
{"id": "C347", "title": "Constant initial conditions", "statement": "The blocks are accepted exactly if every field named exists; each gives its values to every component of every node of every target, and where several do, the last one counts; components without a value, nodes outside the targets and all other memory stay as they were. But the number of values is not compared with the number of components: surplus values overwrite the memory behind each bucket; and an unknown target is not reported but dereferenced.", "quantifier": "every list of blocks, part membership, bucket layout and field size", "why_tests_cant": "bucket layouts and block lists are unbounded; the overflow shows only in other fields", "anchors": ["src/Realm.C:setup_initial_conditions", "src/Realm.C:populate_initial_condition", "src/AuxFunctionAlgorithm.C:execute", "src/ConstantAuxFunction.C:do_evaluate"]}
{"id": "C348", "title": "Flow rates through a non-conformal interface in the volume-of-fluid form", "statement": "The volume flow rate stored after the pressure solve is the one the continuity row balanced; seen from the other side of the interface volume and mass flow rates are opposite; where pressure is continuous and the projected force on each side is the force itself, gravity and surface tension included, only the mean velocity relative to the mesh carries fluid, so that a hydrostatic state stays at rest and a fluid moving with the mesh does not cross it. The mass flow rate is the volume flow rate times the mean density, hence with a density jump that of neither fluid.", "quantifier": "every pair of elements of any kind, Gauss point, nodal fields and options", "why_tests_cant": "interfaces, elements and fields are unbounded", "anchors": ["src/ComputeMdotVofNonConformalAlgorithm.C:execute", "src/AssembleContinuityVofNonConformalSolverAlgorithm.C:execute"]}
{"id": "C349", "title": "Point search in the quadratic hexahedron and the ten-node tetrahedron", "statement": "isInElement of the 27-node hexahedron and of the ten-node tetrahedron, when it reports success, returns reference coordinates whose last correction was below the tolerance and solved the equations of the interpolated position linearised where the correction started; the returned distance is at most one exactly when the returned coordinates lie in the reference cube or tetrahedron. In an element that is the affine image of the reference element, of either orientation, every point of space is located, exactly, so that the distance is at most one exactly for the points of the element; in an element squeezed into a plane no point is ever located. A point at the start of the search is found there whatever the shape of the element. interpolatePoint of the tetrahedron evaluates the interpolation that the search inverts.", "quantifier": "every nodal position, point and tolerance", "why_tests_cant": "elements and points are continuous; a test samples a few", "anchors": ["src/master_element/Hex27CVFEM.C:isInElement", "src/master_element/Tet10FEM.C:isInElement", "include/master_element/TensorOps.h:solve33"]}
{"id": "C350", "title": "Point search on the nine-node face", "statement": "The search on the face of the quadratic hexahedron makes iterations whose matrix holds the slopes of the four-node face through the corners while the residual uses all nine nodes; a position it does not leave is the foot, along the normal of the corners' face, of the point. On a face whose corners form a parallelogram and whose other nodes are displaced along its normal every point of space is located, with the coordinates of its projection along the corners' normal; on a flat one the third coordinate is the distance divided by the square root of a quarter of the area, and the distance is at most one exactly when the foot is on the face and the third coordinate at most 0.01. interpolatePoint evaluates the shape functions.", "quantifier": "every nodal position, point and tolerance", "why_tests_cant": "faces and points are continuous; a test samples a few", "anchors": ["src/master_element/Hex27CVFEM.C:isInElement", "src/master_element/Hex27CVFEM.C:non_unit_face_normal", "src/master_element/Hex27CVFEM.C:parametric_distance"]}
{"id": "C351", "title": "Wall values of the turbulence quantities over all faces and processes", "statement": "At a wall node the value imposed for the specific dissipation rate or the dissipation, given to the boundary condition and to the unknown alike, is the average, weighted with their areas, of the values at all integration points of all the walls (with wall functions or without) credited to the node or to one of its periodic images; it does not depend on the distribution of the faces over processes, on their order or on what was in the fields before, and lies between the smallest and largest of those values. On faces with one integration point per node the same holds for the turbulent kinetic energy.", "quantifier": "every mesh, distribution of faces over processes, order, set of areas and values", "why_tests_cant": "the distributions and meshes are without bound; a test runs a few", "anchors": ["src/SpecificDissipationRateEquationSystem.C:compute_wall_model_parameters", "src/TurbDissipationEquationSystem.C:compute_wall_model_parameters", "src/ComputeTurbKineticEnergyWallFunctionAlgorithm.C:execute", "src/ComputeLowReynoldsSDRWallAlgorithm.C:execute", "src/ComputeWallModelSDRWallAlgorithm.C:execute", "src/ComputeWallModelTurbDissipationWallAlgorithm.C:execute"]}
{"id": "C352", "title": "No exposed face without a boundary condition", "statement": "A process goes on after the boundary conditions of the input were set up exactly when all of them are valid (symmetry, periodic and current non-conformal surfaces exist and, but for periodic ones, consist of sides) and, if check_for_missing_bcs is on, every face of exactly one element that the process has a copy of lies on a surface that some condition names; hence with the check the run starts on all processes exactly when the whole boundary of the mesh is covered, whatever the distribution. The order of the conditions and repetitions do not matter, sides between two elements never stop the run, and a non-conformal condition covers its current surfaces only.", "quantifier": "every mesh, set of surfaces, list of boundary conditions and distribution over processes", "why_tests_cant": "meshes, inputs and distributions are without bound; a test runs a few", "anchors": ["src/Realm.C:enforce_bc_on_exposed_faces", "src/Realm.C:setup_bc", "src/EquationSystems.C:register_wall_bc", "src/EquationSystems.C:register_periodic_bc", "src/EquationSystems.C:register_non_conformal_bc"]}
{"id": "C353", "title": "What the two sides of a transfer hand to the search", "statement": "A process accepts the fields of a transfer exactly when each is registered and carried by every node it holds of every part named, and uses them in the order of the input; all processes accept exactly when that holds on the whole mesh. Over all processes each element of the source parts (and each receiving node) is offered once, by its owner, in ascending order of keys; the box of an element is the smallest one around its nodes and contains every point interpolated with nonnegative weights, so a search cannot miss the element a point is in. After any history of time steps, motions and searches, sending the values gives each copy its owner's current values, and its owner's current coordinates if a search came just before or the mesh has not moved.", "quantifier": "every mesh, distribution, list of fields and parts, element, and history of solves, motions, searches and updates", "why_tests_cant": "meshes, distributions and histories are without bound; a test runs a few", "anchors": ["include/xfer/FromMesh.h:get_fields", "include/xfer/FromMesh.h:bounding_boxes", "include/xfer/FromMesh.h:update_ghosting", "include/xfer/FromMesh.h:update_values", "include/xfer/ToMesh.h:get_fields", "include/xfer/ToMesh.h:bounding_boxes"]}
