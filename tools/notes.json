{
 "C09": {
  "note": "False of the code in general (c09_output_not_fresh, c09_zero_frequency_crashes give witnesses). Proved when the output start is a multiple of the frequency and no wall-clock output is forced. Missing: other starts, forced output (false there)."
 },
 "C15": {
  "note": "Reynolds part proved for every history. Favre part proved for histories without a filter reset; after a reset the code's value is 0/0 (c15_favre_stress_nan_after_reset). Missing: Favre stress after a reset (false)."
 },
 "C16": {
  "note": "False of the code in 2D/3D (c16_variance_wrong, c16_run_wrong). The partial theorem bounds what is computed and gives equality in one dimension and on a reset."
 },
 "C17": {
  "note": "False of the code for all but the first node of each bucket (c17_sfs_stress_depends_on_neighbour, c17_sfs_stress_ignores_own_gradient). Proved for the first node."
 },
 "C20": {
  "note": "Proved for elements whose nodes have pairwise different ids. False with a repeated (periodic) node: c20_fails_for_repeated_nodes."
 },
 "C29": {
  "note": "Proved for inflow and open rates always and for the accumulation without ghosted elements. False with ghosted elements: c29_ghosted_counted_twice."
 },
 "C46": {
  "note": "False of the code (c46_attitude_not_rk4): the stages multiply by dt twice. Proved: right-hand sides are the kinematics and Euler's equations, first-order consistency, exactness for equal inertias."
 },
 "C48": {
  "note": "Sum-to-one and the bounds of the first n-1 mass fractions proved for every input. The last one is not clipped and can be negative (c48_last_can_be_negative)."
 },
 "C49": {
  "note": "Proved for fields with a predictor. False for state fields without one (c49_inactive_step_stale)."
 },
 "C50": {
  "note": "Proved for histories without forced reset and with steps not longer than the interval. False otherwise (c50_long_step_overshoots, c50_forced_reset_scales)."
 },
 "C51": {
  "note": "Proved for every window opened by a reset; in the first window the first sample is missing (c51_resolved_stress_misses_first)."
 },
 "C56": {
  "note": "Proved for two processes; false in general (c56_three_processes_worse)."
 },
 "C65": {
  "note": "Signs and outflow proved. The total-pressure relation for entering flow is false of the code: AssembleGasDynamicsOpenAlgorithm.C:163 sums velocity components without squaring (c65_total_pressure_wrong); proved only where every component is 0 or 1."
 },
 "C68": {
  "note": "Averaging, order independence and clipping proved. The distance claim is false of the code for walls oblique to the axes: it computes sqrt(sum (n_j e_j)^2) instead of |n.e| (c68_wall_distance_wrong_at_angle); proved as bounds and for axis-aligned walls."
 },
 "C71": {
  "note": "k-epsilon and subgrid tke proved in full. SST positivity of omega proved unless the solver returns exact zeros; then omega is stored as zero (c71_sst_zero_dissipation)."
 },
 "C74": {
  "note": "Sum one, bounds of the transported fractions, idempotence proved. Non-negativity of the last fraction is false in general (c74_last_negative); proved when transported fractions add up to at most one."
 },
 "C75": {
  "note": "Counts proved as sums over processes of locally visited nodes; nodes shared by processes are counted on each (c75_shared_node_counted_repeatedly)."
 },
 "C79": {
  "note": "Partial: the full statement is false of the code. A field requested with second dimension one gets a view of the wrong rank (c79_view_shape_mismatch), a scalar or vector request after a tensor request of the same field is accepted silently (c79_silent_mismatch), and deriv_scv/det_j_scv are filled but not interleaved (c79_not_interleaved). The partial theorems carry the hypotheses that exclude these."
 },
 "C82": {
  "note": "Partial: the check stops exactly the processes that hold an element with a negative sub-control volume. It is not collective (c82_not_collective) and accepts flat elements (c82_flat_element_accepted)."
 },
 "C88": {
  "note": "Partial: the viscous force of an open boundary is tangential only without the explicit divergence term. With it (include_divergence) the kernel adds a spurious tangential force (c88_open_divU_spurious). All other clauses are proved."
 },
 "C84": {
  "note": "Limiter off and lagged gradients are hypotheses; the explicit divergence stress is not linearised by the code and the theorems state the exact remainder. Continuity requires equal lhs/rhs gradient operators (no reduced sensitivities)."
 },
 "C90": {
  "note": "Mass on a moving mesh needs equal normal mesh mass fluxes on the two sides (explicit hypothesis); on a static mesh nothing is assumed."
 },
 "C91": {
  "note": "Partial: the viscous stress of a linear velocity is exact without the divergence term (the default); with it the code adds a spurious tangential force (c91_divU_wrong)."
 },
 "C92": {
  "note": "Partial: momentum with lagged viscosity and without the unlinearised divergence and transpose terms; volume of fluid with upwinding on (off: c92_vof_central_not_newton)."
 },
 "C93": {
  "note": "Finding: the penalty of the projected nodal gradient has the opposite, anti-dissipative sign (c93_png_penalty_sign, c93_png_indefinite); the volume-fraction residual upwinds whatever the option says (c93_vof_always_upwind)."
 },
 "C94": {
  "note": "Partial: in parallel a missing match can go unnoticed because the candidates are compared by local Gauss point number without the rank (c94_missing_match_unnoticed); the proved theorem excludes foreign points with the same number."
 },
 "C95": {
  "note": "Partial: the remembered distance reaches a face only if no candidate is farther than the distance remembered before (c95_radius_can_shrink)."
 },
 "C97": {
  "note": "Finding: in two dimensions the vertex arrays are allocated too small and overrun (c97_vertices); half-range fluxes are not exact (c97_half_range_order_one)."
 },
 "C99": {
  "note": "Partial: with scattering the theorems take the full scalar flux in the in-scattering term. The code zeroes the scalar flux at the start of each sweep, so ordinate k sees only the ordinates before it (c99_partial_scalar_flux) and equilibrium is missed however the systems are solved (c99_scattering_not_equilibrium). Grey walls need an exact half-range flux (c99_grey_wall)."
 },
 "C100": {
  "note": "Shifted wall integration points; positive extinction at each node."
 },
 "C101": {
  "note": "Partial: exact without scattering or with the full scalar flux; with the scalar flux as accumulated a scattering medium loses energy (c101_scattering_loss). The balance is proved for the edge based scheme."
 },
 "C102": {
  "note": "The norm sums the square roots of the ranks, so it depends on the decomposition (c102_norm_decomposition), on the safe side (c102_norm_parallel)."
 },
 "C103": {
  "note": "Constant localisation (ConstLoc) is assumed where the boundary PAW algorithm is involved: it reads p_vof[ic] of the element's first nodes. At non-conformal interfaces AssembleContinuityVofNonConformalSolverAlgorithm adds surface tension with the opposite sign; c103_nonconformal_defect computes the spurious rate."
 },
 "C104": {
  "note": "ComputeMdotVofElemOpenAlgorithm reads p_vof[ic] of the element's first nodes in the localisation, so c104_open_stored needs a constant localisation or the face being made of those nodes (witness of the difference in Props/Vof5)."
 },
 "C107": {
  "note": "Findings: the upwind kernels write the right-node Jacobian to column il (c107_upwind_defect, c107_upwind_lost_column); compression drops the derivative of 1-alpha (c107_sharpen_defect); the stabilisation Jacobian omits its time derivative (c107_stabilisation_row)."
 },
 "C108": {
  "note": "Findings: the gradient in the evaporation kernels uses the running interpolant (c108_gradient_used, c108_uniform_defect) and c_ is applied twice (c108_constant_squared)."
 },
 "C109": {
  "note": "Faces of a rank are its locally owned faces; parts that overlap within the projected algorithm are visited twice in execute and once in pre_work (not modelled)."
 },
 "C110": {
  "note": "Findings: averages of different algorithm kinds are added at shared nodes (c110_mixed_kinds_add); listing surfaces twice doubles pressure_force (c110_listed_twice); the y+ distance is the length of the componentwise product of normal and edge (c110_distance), too small on skew walls as in C68. A frequency of zero is a modulo by zero in the code; the model takes step % 0 = step."
 },
 "C111": {
  "note": "Findings: a node whose search fails in all candidates (distance = DBL_MAX) is dropped without notice and keeps its old values (c111_dropped, c112_values); the reported 'Maximum normalized distance' is that of the first searchable candidate, not of the one kept (c111_report). QUAD4 2D reports failures as distance 1e6 with coordinates 1e6 and is then interpolated there (not excluded by the model: search is a parameter). The coarse search is stk's and not modelled."
 },
 "C112": {
  "note": "Ghosting, copy_owned_to_shared and field registration are not modelled. interpolatePoint and isInElement of the tetrahedron are those of C40/C44."
 },
 "C113": {
  "note": "Multi-physics transfers only; IO transfers are C09."
 },
 "C114": {
  "note": "Ranks are a finite type; the exported shared rows are summed. Hypothesis `Listed` (a rank contributing to a constraint node lists it) is what create_overset_info_vec establishes by taking owned and shared nodes. general_shape_fcn is a parameter; c114_affine_hex instantiates the hexahedron. Findings: density and dual volume are read even with scaling off; general_shape_fcn exists only for Hex8, Quad4 and P2 elements (others throw)."
 },
 "C115": {
  "note": "isInElement is a parameter (C44 proves its meaning). Findings: c115_output_changes_donor, clipping of parametric coordinates happens only with detailed output on; nodes without a donor keep a null element and are not reported."
 },
 "C116": {
  "note": "Fields are memory with a base address per node. Findings: c116_gas_dynamics_swapped (GasDynamicsEquationSystem.C:877-879 passes sizes (1,nDim) for density and (1,1) for momentum), c116_order_matters (donors containing constraint nodes), c116_other_sizes (the gather layout is wrong for non-square multi-row fields, which the code does not use)."
 },
 "C117": {
  "note": "stk coarse search is its specification (closed boxes that meet). Findings: c117_obb_displaced (is_point_inside forgets to add the centroid back, so the cut is displaced by it), c117_cylinder_displaced (length along the axis measured from cent instead of the cylinder's centre), percentages above 50 turn the box inside out (c117_shrink)."
 },
 "C118": {
  "note": "stk parts are finite sets; create_exposed_block_boundary_sides is its specification. Limit: without mesh motion nothing is cleared (c118_fixed_accumulates)."
 },
 "C119": {
  "note": "Finding: the edge algorithm subtracts the non-orthogonal correction where it should add it, so for an affine temperature on a skewed mesh the correction doubles the error of the two-point flux (c119_noc_sign). Finding: the element scheme's coefficient divides by the node's own temperature only, so it depends on neighbouring wall temperatures when they differ (c119_coefficient_not_local). Both divide by the wall temperature: zero is excluded by hypothesis. Periodic update between assembly and normalisation: see C38."
 },
 "C120": {
  "note": "The transfer between the realms is identity at matching nodes (C111-C113 for the transfer itself); for Robin coupling the reference temperature is assumed to be the fluid's wall temperature (the user's transfer decides)."
 },
 "C121": {
  "note": "Half-space step is the specification HalfSpaceStep; bounded solutions only."
 },
 "C122": {
  "note": "Finding: HeatCondMassBDF2NodeSuppAlg leaves gamma1 out of its matrix entry, so Newton for heat conduction under BDF2 is inexact (c122_heat_newton: exact iff gamma1 = 1) and reduces the lumped error only by 1 - gamma1 per iteration (c122_heat_iteration); the converged temperature is right."
 },
 "C123": {
  "note": "Dual volume constant over the history (moving meshes: C124). BDF2 with variable steps has no telescoping content; covered are no-source histories and exactness on quadratics."
 },
 "C124": {
  "note": "Inflow nodes are excluded (their rows are Dirichlet rows); momentum without open faces at the node. Requires weights (1,-1,0) with two states (what compute_gamma leaves for first order)."
 },
 "C125": {
  "note": "Finding: ContinuityLowSpeedCompressibleNodeSuppAlg lacks gamma1 in d(rho)/dp, so it is the exact derivative only for gamma1 = 1 (c125_low_speed_newton)."
 },
 "C126": {
  "note": "Node ownership is the stk invariant OwnedOnce; rows are distinct by C18."
 },
 "C127": {
  "note": "numeric_limits::max is modelled as 'no node yet'. Row and column facts of the numbering are hypotheses (PinOK), proved for the code in C18/C21."
 },
 "C129": {
  "note": "Finding: with include_divu the element symmetry kernel does not add the divergence stress 2/3 mu div(u) A but 2/3 mu (sum_j du_j/dx_j A_j) n (sum_l n_l): wrong on faces not aligned with an axis (c129_kernel_divU). Partial theorem is for include_divu = 0."
 },
 "C130": {
  "note": "Findings: AssembleMomentumEdgeOpenSolverAlgorithm's matrix misses the terms coupling three different components, so it is inexact in 3-D for normals with three nonzero components (c130_open_matrix_error gives the error, c130_open_3d_fails a case); AssembleMomentumEdgeSymmetrySolverAlgorithm omits inv_axdx in two factors (lines 303, 307), so the matrix is wrong on every face not aligned with a coordinate plane (c130_symmetry_skew_fails). Residuals are right (C128, C129), so converged solutions are not affected."
 },
 "C131": {
  "note": "std::sqrt of the squared area is data (amag)."
 },
 "C132": {
  "note": "numProcs/numProbes divides by zero for a specification without probes (not modelled: Lean's n/0 = 0). Ids are those drawn by generate_new_ids (STK, trusted to be fresh)."
 },
 "C133": {
  "note": "Finding: at a restart where the nodes of one probe are owned by two ranks, every rank numbers its nodes from zero, so nodes of different ranks coincide (c133_split_restart). Nodes are placed in bucket order, not id order."
 },
 "C134": {
  "note": "Real arithmetic; three dimensions."
 },
 "C135": {
  "note": "Finding: numPointsDTwo = max(2, n2-1) where the first direction has max(1, n1-1): with n2 = 2 tip two is never reached (c135_two_rows)."
 },
 "C136": {
  "note": "Ranks write one after the other; with a probe split over two ranks (C133) the order is up to the file system."
 },
 "C137": {
  "note": "Model: Verif/Model/SolutionNorm.lean. The interpolation of the analytical functions is a parameter. Finding (c137_restart_truncates): the norm file is opened without append when the input is loaded, so a restarted run deletes the norms of the first."
 },
 "C138": {
  "note": "Model: Verif/Model/Mms.lean, transcribed term by term from the node algorithms (the element versions contain the same expressions). Reals instead of floating point. The hypothesis specificVolume \u2260 0 is needed: with the constants of the code V = 1 + 9 Z vanishes where Z = -1/9."
 },
 "C139": {
  "note": "Model: Verif/Model/Mms.lean. code_temp_pos shows the hypothesis holds everywhere for the constants of the code."
 },
 "C140": {
  "note": "Model: Verif/Model/ExactSol.lean. The amplitude relations (vnot = unot, pnot = unot\u00b2) hold for the constants of the code. The Boussinesq statement uses the model of MomentumBoussinesqSrcNodeSuppAlg of C125."
 },
 "C141": {
  "note": "Model: Verif/Model/ExactSol.lean. Finding (c141_inviscid_undefined): for viscosity at or below 1e-30 the code sets both the scaled time and the Reynolds number to zero and then divides them, so the inviscid vortex is NaN, contrary to the comment 'zero out viscous terms if mu ~ 0'."
 },
 "C142": {
  "note": "Model: Verif/Model/ExactSol.lean."
 },
 "C143": {
  "note": "Model: Verif/Model/Fem.lean; specification Verif/Spec/Fem.lean."
 },
 "C144": {
  "note": "Verif/Props/Fem.lean. The explicit dilatational terms are by design not in the matrix, so those two kernels are stated with it off."
 },
 "C145": {
  "note": "Verif/Props/Fem.lean."
 },
 "C146": {
  "note": "Verif/Props/Fem2.lean; shape-function hypotheses are those proved of the elements elsewhere."
 },
 "C147": {
  "note": "Verif/Props/Fem2.lean."
 },
 "C148": {
  "note": "Full statement false of the code: MomentumDiffFemKernel.C applies the dilatational stress inside the loop over nodes, so it is subtracted nodesPerElement times (c148_viscous_actual, c148_dilatation_overcounted). Proved where the dilatational term is off or the discrete divergence vanishes."
 },
 "C149": {
  "note": "Verif/Props/Fem3.lean."
 },
 "C150": {
  "note": "Model: Verif/Model/FemElem.lean; Props/FemElem.lean. Decimal constants exact rationals; the abscissa sqrt(3)/3 a parameter with square 1/3 where needed."
 },
 "C151": {
  "note": "Props/FemQuad.lean; integrals are iterated interval integrals."
 },
 "C152": {
  "note": "Props/FemFace.lean."
 },
 "C153": {
  "note": "c153_too_few_sites and c153_order_zero_reads_outside record the limits. Observation: basis_funs declares left[10], right[10] but the assert admits p = 10, which writes element 10."
 },
 "C154": {
  "note": "Proved for all orders; scratch content arbitrary."
 },
 "C155": {
  "note": "c155_no_pivoting shows an invertible matrix that is refused."
 },
 "C156": {
  "note": "Interpolation theorems hold whenever the construction finishes without a zero pivot (c156_order_one: always for order one)."
 },
 "C157": {
  "note": ""
 },
 "C158": {
  "note": "The scratch arrays of the splines are a parameter of the model; every theorem holds for all contents. Writing to and reading from HDF5 is not modelled."
 },
 "C159": {
  "note": "Exact real arithmetic."
 },
 "C160": {
  "note": "Partial: D need not be diagonal. The loop is limited to 24 passes and its rotation is inexact, because the quaternion product is computed in place (q[1] from the new q[0], ...): c160_rotation_inexact shows a matrix one exact rotation would diagonalise but the code does not. The SIMD overload compares strictly on both sides, so a tie between the two largest off-diagonal entries makes it return Q = 1, D = A (c160_simd_tie_gives_up, c160_simd_not_diagonal). Everything else (rotation, similarity, invariants, reconstruction, lane independence, agreement without ties) is proved without restriction."
 },
 "C161": {
  "note": "The 3x3 arrays are used; in 2D the code decomposes a 3x3 array whose last row and column it never sets. The energy floor 1e-16 is modelled. The realizability bound is quantitative in the off-diagonal residue of the (possibly unconverged) decomposition."
 },
 "C162": {
  "note": "Three dimensions. A vanishing strain rate divides by zero in the code (time scale 1/|S|). Deviations recorded: the laminar non-orthogonal correction ignores the user's noc switch (c162_laminar_correction_always_on), and the Reynolds stress uses the eddy viscosity divided by the turbulent Prandtl number (c162_unperturbed_stress). Orientation theorem: limiter off and non-zero mass flow rate."
 },
 "C163": {
  "note": "Proved for three dimensions; the two-dimensional behaviour is c164_two_dimensions."
 },
 "C164": {
  "note": "Full statement refuted: c164_velocity_reversed (the code uses minus the derivative) and c164_not_the_velocity (never right off the axis when turning).  Proved part: c164_speed_partial."
 },
 "C165": {
  "note": "cbrt, sqrt exact over the reals."
 },
 "C166": {
  "note": "Full statement refuted: c166_integral (1/e^n of the force), c166_total_partial (right exactly for e = 1), c166_last_wins and c166_overlap_lost (overwriting instead of adding, partition dependent).  Proved part: superposition when no two points of a rank share a node."
 },
 "C167": {
  "note": "isInElement is modelled in C44; here its result is data of the hit.  Density is not in the list of ghosted fields (line 437-441), so on ghosted elements the code may read an old density; the model reads the same fields on all ranks."
 },
 "C168": {
  "note": "The nodal supplemental algorithm itself is in Model/NodeSource (C125)."
 },
 "C170": {
  "note": "full statement false of the code: dt_avg = 0.5*dt + dt_nm1 (should be 0.5*(dt+dt_nm1)) scales the acceleration by (dt+dt_old)/(dt+2dt_old) (2/3 for equal steps), and with two states uniform motion is decelerated; both proved."
 },
 "C171": {
  "note": "full statement false of the code: the term factor*F uses the full deformation gradient although H^T is added separately, so mu*beta/J*H^T is counted once too often; a rotated mesh carries 3/4 mu (R-I)^T and in 2D the rest state carries -mu/12 (alpha is the 3D value)."
 },
 "C172": {
  "note": "full statement false of the code: MeshDisplacementEquationSystem.C:199-200 registers LAME_MU_ID for lameLambda_ and LAME_LAMBDA_ID for lameMu_; proved right only if both are equal."
 },
 "C175": {
  "note": "Closed forms of fluxLoop; c175_flux/_ke, c175_viscosity/_ke, c175_residual, c175_exact_fields, c175_matrix."
 },
 "C176": {
  "note": "All three diffusive momentum kernels share momentumWith; the viscosity of each is inserted."
 },
 "C177": {
  "note": "Partial: the code adds the dilatation term inside the loop over the nodes, so it is counted nodesPerElement times (MomentumNSOSijElemKernel.C:187-226). c177_stress_partial states what is added, c177_stress_incompressible the full claim when divU is not included or zero, c177_expansion the error 2(m-1) nu c g_ii a_i on a uniform expansion."
 },
 "C178": {
  "note": "Symmetry, semidefiniteness, zero row sums and consistency of the FEM form."
 },
 "C179": {
  "note": "Partial only in the SIMD claim: the clip tests lane 0 for the whole pack (Quad42DCVFEM.C:766-767); c179_simd_partial and c179_simd_counterexample. twod_gij/threed_gij are fully proved."
 },
 "C184": {
  "note": "Partial: the full statement is false. c184_des_matrix shows that the element DES matrix is 2/3 of the node matrix (1.5 factor missing in TurbKineticEnergySSTDESSrcElemKernel.C:197), c184_sdr_des_les that the omega equation differs in the LES region."
 },
 "C186": {
  "note": "Partial: holds when no two threads are inside an integration point at the same time; c186_race exhibits an interleaving of two threads in which one reads the other's gradient (w_drhodx_ is a member of the shared kernel)."
 },
 "C189": {
  "note": "Partial: c189_residual_integral_partial and c189_normalized_uniform_partial need one integration point per node, in order. ExplicitFiltering.C:1200 reads p_scvol[nn] (node index) instead of p_scvol[ip]; c189_volume_index_counterexample shows the wrong volumes for an element with two points per node (Quad9, Hex27). c189_hydrostatic holds for all elements."
 },
 "C191": {
  "note": "Partial: c191_one_converter_partial covers one converter with exactly one new input, names in table order with the new one last. Otherwise the statement is false of the code: the order of the names is ignored (c191_order_counterexample), a second converter's result goes to the wrong coordinate (c191_two_converters_counterexample: tableInputNames is a reference to the list being erased from), and converters with no or several new inputs access vectors out of range."
 },
 "C193": {
  "note": "Partial: for ChiConverter (and GammaConverter, built the same way) the inner table is never wired, so mixture fraction and variance have no influence (c193_chi_inner_counterexample); only proportionality is proved (c193_chi_proportional_partial). The rest is proved."
 },
 "C194": {
  "note": "The accuracy of the Newton inverse of the error function is not claimed. c194_order_counterexample records that the order of the two stoichiometric points matters."
 },
 "C196": {
  "note": "c196_quartic_counterexample: degree four is not exact."
 },
 "C197": {
  "note": "The flag is only ever set by the code, never cleared."
 },
 "C203": {
  "note": "Partial: exact for elements with trilinear geometry; for curved elements the two-point rule is not (c203_curved_counterexample: the barrel element loses volume)."
 },
 "C204": {
  "note": "Partial: proved for faces and for a single edge; for two or more edges the code's offset counts nodes (3) instead of points (6), so the edges overwrite each other and part of the array is never written (c204_two_edges_counterexample). The callers always pass one edge."
 },
 "C206": {
  "note": "Partial: the loops stop at the number of surface points (24) instead of volume points (36); the last twelve entries keep their old contents (c206_last_points_counterexample)."
 },
 "C208": {
  "note": "The open scalar algorithm reads value and gradient at the nearest element node, the kernel at the face node of the point; agreement of the two maps is a hypothesis there (it is a property of the master elements, C199/C202 and the linear tables)."
 },
 "C211": {
  "note": "The zero denominator at no slip is stated by c211_ode_denominator. Not modelled: refresh of ghosted velocities (wallFunctionGhosting_ is passed by value as a null pointer to the solver and force algorithms, whose copies therefore stay null)."
 },
 "C215": {
  "note": "Partial: the stress returned is mu times the first difference quotient, strictly below the stress carried by the profile at any positive stress (c215_reported_below_carried_partial). tauWall_ is never written, so the 'use last' guess is never used (c215_no_memory)."
 },
 "C216": {
  "note": "Partial: c216_collision_hides_unowned_partial exhibits the unreported unowned point."
 },
 "C218": {
  "note": "Partial: c218_leak_partial and c218_table_file_partial exhibit the leaks."
 },
 "C221": {
  "note": "Partial: c221_null_evaluator_partial lists the accepted specifications without evaluators."
 },
 "C223": {
  "note": "Partial: c223_species_constant_zero_partial."
 },
 "C224": {
  "note": "Partial: c224_wrong_stride_partial (no caller in the code base uses such a range)."
 },
 "C226": {
  "note": "Partial: c226_reynolds_partial."
 },
 "C228": {
  "note": "Partial: c228_linear_partial, c228_uniform_partial."
 },
 "C229": {
  "note": "Partial: c229_vorticity_2d_partial, c229_scalar_vorticity_partial, c229_length_partial."
 },
 "C230": {
  "note": "Partial: c230_edge_noc_partial, c230_heat_partial."
 },
 "C231": {
  "note": "Partial: c231_unknown_partial, c231_heat_vorticity_partial."
 },
 "C232": {
  "note": "The periodic update after the reduction is not part of this model (see C-claims on periodic_field_update)."
 },
 "C233": {
  "note": "Missing: a component number not below the field size is accepted and written past the data (c233_component_not_checked_partial)."
 },
 "C234": {
  "note": "Missing: odd parameter count and repeated abscissas (c234_table_unchecked_partial)."
 },
 "C236": {
  "note": "Missing: files ending with a newline write out of bounds (c236_trailing_newline_out_of_bounds_partial)."
 },
 "C243": {
  "note": "Missing: continuity for ratios that are not odd integers; c243_layer_inverted shows the inversion for even ones."
 },
 "C252": {
  "note": "partial: when attachment point and anchor coincide the code divides by zero (unless the tether may slacken and has a non-negative relaxed length); c252_coincident_partial characterises exactly these inputs"
 },
 "C253": {
  "note": "partial: the full claim is false of the code; the driver neither zeroes pressure_force, tau_wall and yplus nor sums them over ranks (the surface driver of C109-C111 does), as c253_accumulates_partial shows"
 },
 "C255": {
  "note": "partial: the isotropic part 2/3 rho k is added inside the loop over the element's nodes, so it enters nodesPerElement times instead of once (c255_stress_partial, c255_overcounted_partial); anisotropic part, conservation and linearisation are proved in full"
 },
 "C259": {
  "note": "partial: proved for static meshes; with mesh motion the mesh velocity is subtracted from the current side's Mach number only, so a gas at rest relative to the moving mesh has a mass flux and the two sides do not balance (c259_moving_mesh_wrong)"
 },
 "C260": {
  "note": "partial: the velocity gradient repeats the diagonal derivative in every column (c260_gradient_repeats_diagonal; simple shear produces no traction, c260_shear_wrong) and the opposing divergence term uses the current normal, so momentum is conserved exactly when mu div u agrees on both sides (c260_momentum_conserved_partial); heat is proved in full"
 },
 "C261": {
  "note": "partial: true for mass and momentum; the off-diagonal stress workspace is never reset and accumulates over all points from an uninitialised value, so the viscous work in the energy row depends on the history (c261_workspace_accumulates, c261_energy_history_wrong); energy proved for inviscid gases with clean workspaces"
 },
 "C262": {
  "note": "partial: the opposing gather uses the current face's node count as stride: correct for equal counts; a quadrilateral facing a triangle writes beyond the array (c262_write_in_bounds_iff) and a triangle facing a quadrilateral reads other nodes' values (c262_mixed_topology_wrong)"
 },
 "C267": {
  "note": "partial: all members but the turbulent dissipation, which is looked up under the misspelt key turbulent_dissipation_ and silently ignored (c267_open_eps_wrong); the emissivity flag of wall data is never initialised (c267_emissivity_flag)"
 },
 "C273": {
  "note": "partial: with the projected wall function alone the specific dissipation rate is given its resolved-wall value while momentum uses the wall function (c273_sdr_projected_wrong)"
 },
 "C274": {
  "note": "partial: a user function named for the mixture fraction at a wall is ignored and the default number zero imposed (c274_wall_user_function_wrong)"
 },
 "C275": {
  "note": "partial: enforced for symmetry only (c275_symmetry_checked); a misspelt wall, inflow or open target is accepted and the run is the one without the block (c275_bad_target_wrong)"
 },
 "C277": {
  "note": "partial: every entry must carry one option; an entry with two known options has only one of them read, silently (c277_two_options_wrong)"
 },
 "C278": {
  "note": "partial: one option per entry, as C277"
 },
 "C279": {
  "note": "partial: values need one option per entry; findings: an unknown constant name is ignored silently (c279_unknown_constant_silent_wrong) and without a solution_options block no constant exists, so a lookup ends the run (c279_no_block_wrong)"
 },
 "C280": {
  "note": "two defaults are lost when their line is absent: the eigenvalue perturbation bias (3 becomes 0) and the quadrature type (c280_lost_defaults_wrong)"
 },
 "C282": {
  "note": "partial in 3D: the sign switch of Q is unconditional, so for 3\u00b7(second invariant) = trace\u00b2 with 2B\u00b3-9BC+27D > 0 the code divides 0 by 0 and writes NaN (c282_swirl_3d_nan_wrong, minus the cyclic permutation)"
 },
 "C285": {
  "note": "partial: what holds is the integral from the second sample on divided by the whole window; the first sample is skipped but its step is counted, so a steady rate is reported as m/(m+1) of itself (c285_dissipation_mean_wrong)"
 },
 "C293": {
  "note": "partial: proved for the owned rows with at least one column. Rows without any column keep all their placeholders (c293_empty_row_kept), and the rows of shared, not owned unknowns are not cleaned at all, so any repeated insertion, e.g. of two periodic images of one node, leaves placeholders there (c293_repeated_column_leaves_invalid)"
 },
 "C294": {
  "note": "message transport itself (stk::CommNeighbors, MPI) is assumed reliable and ordered"
 },
 "C303": {
  "note": "partial: holds for runs that are not restarted and from the second step after a restart; velocity is no restart variable and is not refilled from the unknown, so the first step after a restart uses the initial-condition velocity (c303_restart, c303_restart_not_continuation)"
 },
 "C305": {
  "note": "conversion errors of yaml-cpp are not modelled"
 },
 "C306": {
  "note": "specifications without any target are refused through a null pointer in the code (modelled as crash)"
 },
 "C307": {
  "note": "a variable listed twice, or two blocks of one name, are accepted and then averaged twice per step (c307_listed_twice_wrong); c307_collision shows that the condition on names is needed"
 },
 "C308": {
  "note": "partial: requesting only the dissipation rate does not add velocity, so the mean velocity it reads is a null pointer (c308_dissipation_alone)"
 },
 "C309": {
  "note": "a second system written in the same list item is silently dropped (c309_second_in_item_ignored); later effects of constructors are not modelled"
 },
 "C313": {
  "note": "independent checks are grouped, so only the kind of the first error may differ; yaml-cpp is not modelled"
 },
 "C316": {
  "note": "one time integrator; zero frequencies (division by zero) are excluded by type"
 },
 "C317": {
  "note": "findings: the log is shared by all realms, so a name offered by another realm is accepted and nothing is built; an equation without a list is refused"
 },
 "C318": {
  "note": "line faces are not checked against the element: an impossible pair would get another element's kernel"
 },
 "C320": {
  "note": "findings: with the edge-based scheme, or with two keys in one option, the review counts an accumulation the equation does not contain"
 },
 "C321": {
  "note": "finding: a block that is not written directly in the realm is created from a node that no longer exists (the search stores addresses of its local variables)"
 },
 "C322": {
  "note": "finding: on all other ranks the check never reports, so in parallel one rank stops and the others go on"
 },
 "C324": {
  "note": "findings: with several passes the first iteration always ends with scaled residual one; a first residual of exactly zero makes the species never converge"
 },
 "C325": {
  "note": "findings: after mesh motion, or after a change of the boundary enthalpy, the first assembly of a call reads a gradient that is not that of the unknown it reads"
 },
 "C326": {
  "note": "finding: with two or more passes the later ones read the gradient of the unknown before the first update (the code comments it as decoupled)"
 },
 "C327": {
  "note": "the state swap is left out of this pair's model, it leaves Np1 as it was (C325)"
 },
 "C328": {
  "note": "finding: after mesh motion the first assemblies of a call read pressure and velocity gradients of the old mesh"
 },
 "C330": {
  "note": "overset nodes are not in this model (C116)"
 },
 "C332": {
  "note": "finding: with mesh-file input in several realms the time of the last realm is taken, even if earlier than the others and than the start time"
 },
 "C333": {
  "note": "findings: with deformation but no prescribed motion the matching of the undeformed mesh is kept for the whole run; between a restart and the first time step the geometry is that of the set-up coordinates"
 },
 "C335": {
  "note": "findings: a node that becomes inactive drifts by its last correction in every iteration; a node of a periodic subject part the search did not pair has a row of its own whose solution is never copied back"
 },
 "C336": {
  "note": "partial because the full claim is false of the code for two or more unknowns per node (proved: c336_vector_rows_misplaced, c336_vector_rows_left_zero, c336_vector_rows_wrong_example)"
 },
 "C337": {
  "note": "finding: a wall listed in two boundary conditions uses the first entry's points and law in both passes, with the second entry's distance in the formulas (c337_listed_twice_wrong)"
 },
 "C338": {
  "note": "finding: the ghosting pointer handed to the momentum and force algorithms is a copy of a null pointer, so they never communicate (LowMachEquationSystem.C:1022, 2004)"
 },
 "C340": {
  "note": "findings: -i x.log destroys the input (c340_input_destroyed); inputs without extension in a directory with a dot share one log (c340_directory_dot); --log-file leaves the base name empty; missing input exits with 0"
 },
 "C341": {
  "note": "finding: with one process --pprint computes log10(0) and converts minus infinity to int (c341_one_process)"
 },
 "C343": {
  "note": "findings: restart overwrites the volume fraction (c343_restart_overwritten, c343_restart_fills); the default distance empties the domain"
 },
 "C345": {
  "note": "findings: c345_waits, c345_zero_row_others_go_on"
 },
 "C346": {
  "note": "findings: a file of version one is not readable back, its arrays are looked for in data sets (c346_version_one); reads are unchecked, a missing attribute is silently zero (c346_missing_silent); clipping and the order of splines of several dimensions are not in the file"
 },
 "C347": {
  "note": "findings: c347_overflow (too many values), c347_targets (unknown target is a null part)"
 },
 "C348": {
  "note": "finding: the mass flow rate uses the mean density, not the upstream one (c348_neither_density)"
 },
 "C349": {
  "note": "on a curved element success only says that the last correction was short, which is all the code checks"
 },
 "C350": {
  "note": "finding: on a curved face the position found is not the foot of the perpendicular (c350_not_perpendicular), and the iteration is not Newton's, because only the corners enter the Jacobian and the normal"
 },
 "C351": {
  "note": "finding: on nine-node faces the turbulent kinetic energy algorithm adds one integration point per node and divides by the area of all of them, so every node gets a quarter of a uniform value (c351_tke_quadratic), and the wall model for the other two credits points to the wrong nodes (c351_model_quadratic)"
 },
 "C352": {
  "note": "findings: an unknown surface of a wall, inflow or open condition is never refused (c352_misspelt), and the check throws only on processes that have a copy of an uncovered face, so that the others go on and wait (c352_not_collective)"
 },
 "C353": {
  "note": "two further facts proved: the refusal is thrown by the processes concerned only (c353_refusal_local), and coordinates of copies go stale on a moving source until the next search (c353_coords_stale)"
 }
}