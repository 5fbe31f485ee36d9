# Formal model of NaluCFD/Nalu in Lean 4 — design

## 1. Approach

`lean/Verif/Model/*`  — the model: total, computable (where possible) functional
transcriptions of functions in /repo; each definition cites the file and lines it models.
`lean/Verif/Spec/*`   — small specifications written without reference to the model.
`lean/Verif/Proofs/*` — helper lemmas.
`lean/Verif/Props/*`  — one theorem (or group) per property C.., each beside an `example`
showing that its hypotheses are met by a concrete non-trivial case.

Numbers.  C++ `double` arithmetic is modelled in an arbitrary linearly ordered field `K`
(theorems hold for every such field, examples run in `ℚ`), or in `ℝ` when square roots, `tanh`
or calculus are involved.  So all statements are about *exact arithmetic*: rounding, overflow,
NaN/Inf are not modelled.  Where the C++ divides, either the theorem assumes the divisor is
nonzero or the model makes the division by zero a distinct outcome.
Integers are `ℤ`/`ℕ` (no overflow).

State and effects.  A loop over STK buckets is a `List.foldl` over the list of entities in the
order visited; fields are functions from node ids to values; MPI reductions are sums/minima/maxima
over the list of ranks; file output is a trace of events.

Undefined behaviour and exceptions are explicit outcomes (`Except`, `Option`, or a `UB` constructor).

When a property is false of the code, the file contains the negation with a concrete witness, and
the part that does hold under a `_partial` name.

## 2. Trusted base

* Lean 4.33.0 kernel and Mathlib.  Axioms used: `propext`, `Quot.sound`, `Classical.choice` only; the axioms
  each claim theorem depends on are listed, theorem by theorem, in `AXIOMS.md` (generated from the compiled
  environment by `tools/mk_axioms.sh`).  No axiom is declared in the project, no compiled evaluation is used
  (`decide +kernel` is evaluated by the kernel).
* The transcription from C++ to Lean, done by hand from /repo (nothing is extracted).  Every model definition
  cites file and lines.
* Exact-arithmetic reading of `double` (no rounding, no overflow, no NaN except where a NaN outcome is modelled
  explicitly).
* STK mesh, Tpetra, MPI, YAML, Ioss/Exodus, Kokkos, Fortran kernels not listed below: not modelled; their
  behaviour is represented by the model's inputs (lists of entities in visiting order, per-process lists,
  relations such as "edge k joins nodes a and b").

### What is modelled (by Lean module)

| module | code |
|--------|------|
| Model/Time, Output, Control | TimeIntegrator, Realm output/restart/advance, EquationSystem(s) iteration control, Simulation |
| Model/Averaging | MovingAveragePostProcessor, TurbulenceAveragingPostProcessing |
| Model/LinSys | TpetraLinearSystem (numbering, graph, sumInto, Dirichlet, export), LinearSolver.h graph arrays |
| Model/Edge, Peclet | edge solver algorithms (scalar, momentum, continuity, open), nodal gradients, mdot, PecletFunction |
| Model/Thermo, Numerics | property_evaluator/*, temperature extraction, tabular_props interpolation, LU solver |
| Model/Periodic | PeriodicManager, InterfaceBalancer |
| Model/ElemKernel, ElemContinuity | src/kernel: ScalarAdvDiff, ScalarUpwAdvDiff, ScalarDiff, ScalarMass, ScalarGcl, MomentumAdvDiff, MomentumUpwAdvDiff, MomentumMass, MomentumGcl, Momentum(Boussinesq)Buoyancy, ContinuityAdv/Mass/Gcl/Open/Inflow, ScalarOpenAdv, ScalarFluxPenalty, MomentumOpenAdvDiff kernels; one SIMD lane, one element at a time |
| Model/ElemGeometry, ShapeFunctions, PointSearch, MeshGeom | master elements (hex, tet, wedge, pyramid, quad, tri): areas, volumes, shape functions, isInElement; ComputeGeometry* algorithms |
| Model/MeshMotion | mesh_motion/*, MeshMotionInfo, six-dof, Realm displacement |
| Model/GasDynamics | gas_dynamics/* |
| Model/WallFunction, Turbulence | wall functions, eddy viscosities, turbulence sources, clips |
| Model/ElemLoop | SimdInterface, CopyAndInterleave, Assemble(Face)ElemSolverAlgorithm, ScratchViews, ElemDataRequests |
| Model/ElemKernel*, NonConformal, NcSearch | src/kernel element kernels; *NonConformal* algorithms; NonConformalInfo, NonConformalManager |
| Model/Radiation | src/pmr: quadrature set, edge/element/wall assembly, sources, ordinate sweep, convergence norm; coupling to enthalpy, temperature, conduction |

Not modelled: the overset manager, xfer, actuator line, YAML
parsing, exodus I/O formats, Tpetra/MueLu solver internals, high-order promoted elements, user functions -
unless a row below says otherwise.

## 3. Plan per property

See the table at the end (kept current with MANIFEST.json).

| id | what is modelled | how it is proved |
|----|------------------|------------------|
| C01–C03 | `TimeIntegrator::integrate_realm` loop as a fuel-free relation / iterate of a step function with `simulation_proceeds` | induction on steps, invariants |
| C04 | `compute_gamma` inside the step loop | invariant on the loop + field algebra |
| C05 | `compute_adaptive_time_step` | case analysis; induction for n steps |
| C06–C08 | output/restart decision functions with the wall-clock flag as state; restart record write/read | trace induction, refinement uninterrupted vs. restarted |
| C09 | `process_io_transfer` against `provide_output` | negation by witness; partial theorem |
| C10 | multi-state field rotation | invariant |
| C11–C12 | `advance_time_step`, statistics | induction on the history |
| C13–C17 | averaging post-processors | induction on sample history |
| C18–C22 | `TpetraLinearSystem` numbering, row assembly, Dirichlet, export | list induction, permutation invariance |
| C23–C29 | edge algorithms, limiter, Peclet, mdot, mass balance | field algebra, fold invariants |
| C30–C35 | property evaluators, temperature extraction, tables, LU | algebra, derivative calculus, induction |
| C36–C39 | periodic manager, interface balancer | set algebra, fold invariants |
| C40–C44 | master elements | polynomial identities over all coordinates |
| C45–C47 | mesh motion | algebra / isometry |
| C48, C74 | `compute_nth_mass_fraction` at a node and over the node loop | case analysis on the clips, finite sums |
| C49 | `swap_states` / `active_time_step` in the step loop of several realms | invariant over steps |
| C50–C52 | exponential moving averages, resolved stress, Q-criterion, vorticity | induction on samples; matrix algebra |
| C53 | edge lhs/rhs of scalar, momentum, open | residual as a function of the unknowns; `rhs(q+dq)=rhs(q)-lhs dq` with frozen coefficients |
| C54 | continuity assembly, solve, mdot recomputation | algebra over the edge list |
| C55 | edge fluxes on linear fields | algebra |
| C56 | one iteration of `balance_node_entities` | fold invariant |
| C57–C58 | `LocalGraphArrays`, insertion, row lengths, communicated columns | list induction, sortedness invariant |
| C59 | `sidePcoords_to_elemPcoords` | polynomial identity |
| C60 | `compute_centroid_on_parts` | fold min/max over nodes and ranks |
| C61 | area vectors of parallelepiped elements | polynomial identities, positivity |
| C62–C65 | AUSM flux, explicit update, auxiliary variables, open boundary | edge-list telescoping, algebra in ℝ, case analysis on Mach number |
| C66–C69 | Newton iteration for u_tau, wall force, wall distance average, wall values | analysis of the log law, projections, sums over exposed ips |
| C70–C75 | closures, clips, sources, diagnostics | real analysis (sqrt, tanh), case analysis, fold invariants over ranks |
| C76–C77 | SIMD grouping and face runs | list induction; equality with the scalar loop |
| C78–C79 | scratch allocation against the count, request/fill tables, field registration | arithmetic inequalities for all sizes; case analysis; induction on requests |
| C80–C82 | ComputeGeometryInterior, driver pre/post work with `parallel_sum`, check_jacobians | loops as sums; STK edge relation in either orientation; composition with C42/C43 and C27 |
| C83–C86 | element kernels of src/kernel (19 kernels), any element | every kernel is the loop nest of the code over an abstract element (shape functions, gradients, areas, volumes arbitrary); closed forms of rhs and matrix action by induction on the loops; conservation, exact linearisation, affine exactness, content |
| C87 | element continuity system on a mesh of mixed elements, open and inflow faces; ComputeMdotElem(Open) | assembly as fold of `applyCoeff` over work items; solved row ⇒ balance via C84 on the mesh |
| C88 | open-boundary kernels and upwinding | closed forms; the divergence clause is false, counterexample proved |
| C89 | scalar and momentum systems driven by the mass flow rates of C87 | composition of C85, C86, C87, C88 |
| C90–C93 | non-conformal (DG) interface: scalar, momentum, continuity, PNG, VOF, diffusion assemblies, mass flow rate, nodal gradient | one Gauss point with a current and an opposing element of arbitrary type (shape functions, gradients, ordinals arbitrary); closed forms; mirror relation between matched points for conservation; exact Newton by linearity |
| C94, C95 | NonConformalInfo: candidates, nearest face, boxes, repeated search | fold invariant over the candidates; induction on the number of doublings; coarse search is an arbitrary function from point and radius to boxes |
| C96 | NonConformalManager/Info: requested ghosts, precise send/receive lists | set-level model of all ranks; induction on the history of rounds |
| C97 | create_quadrature_set over the reals | spherical excess as solid angle: additivity by a shared-edge argument, induction on the triangulation; reflections for the moments |
| C98 | edge SUCV/upwind, element SUCV, wall and source kernels | closed forms; linearity in the intensity gives exact Newton |
| C99 | the same with the sweep of ordinates | geometric closure; partial with scattering because of how the code accumulates the scalar flux (proved counter-theorem) |
| C100 | edge upwind assembly | M-matrix form of the assembled row, argument at the extremal node |
| C101 | solve_and_update as a fold over ordinates with an arbitrary solver | invariant of the fold; sum over ordinates and nodes of the solved equations; partial with scattering |
| C102 | PMR sources, irradiated wall conduction, norm | algebra, subadditivity of the square root |
| C103 | balanced-force volume flow rate, PAW nodal gradient (interior, boundary, driver), projection, non-conformal rate | closed form of the rate in terms of the force imbalance; loop invariant grad = c * weight |
| C104 | ContinuityVof adv/open/inflow kernels, stored rates | exact Newton + exact assembly of the balance, as C87 |
| C105 | update_and_clip, smooth_vof | case analysis; induction on passes |
| C106 | compute_interface_normal / _curvature | Jensen (Cauchy-Schwarz) for the length, affine exactness |
| C107 | VolumeOfFluid kernels, capillary and compression momentum kernels | closed forms of residual and Jacobian action |
| C108 | evaporation kernels | closed form of the running interpolant by induction on nodes |
| C109 | three surface-force algorithms, report | fold = sum; perm invariance; algebra of the cross product |
| C110 | nodal fields, driver, point contributions | closed form of the two passes; weighted averages; orthogonal decomposition |
| C111 | filter_to_nearest | induction on candidates: kept = first minimum; map membership |
| C112 | LinInterp::apply | fold over distinct keys; partition of unity; composition with C44 on tetrahedra |
| C113 | coupling loop of TimeIntegrator | trace = blocks of solve + transfers; induction on blocks |
| C114 | assembly of overset constraint rows on all ranks, TpetraLinearSystem::prepareConstraints | row products over folds; sum over ranks |
| C115 | OversetManagerSTK::complete_search, clipping | list induction; sorted lists with the same elements are equal |
| C116 | OversetManager::overset_constraint_node_field_update as writes to memory | induction on the constraint list |
| C117 | bounding box, reduction, coarse box, OrientedBox/OrientedCylinder tests | order arithmetic; rotation inverse from C47 |
| C118 | parts of the background mesh and their clearing | path induction through faces; induction on the history |
| C119 | wall heat transfer assembly (edge, element) and driver over ranks | closed form of the fold per node, algebra; affine fields |
| C120 | solid wall condition, choice of boundary data | node-wise Newton lemma, sums over faces |
| C121 | coupling parameter | quadratic root; growing mode excluded by boundedness (induction) |
| C122 | lumped time terms (scalar, momentum, continuity, heat conduction) | algebra on the local arrays |
| C123 | the same over histories | induction on the number of steps; composition with C04's run model |
| C124 | edge scheme system with time and GCL terms | closed form per row, composition with C24 and C54 |
| C125 | forces, work, dissipation | algebra; Cauchy-Schwarz for the dissipation |
| C126 | node loop over ranks | sum over ranks, uniqueness of the owner |
| C127 | FixPressureAtNodeAlgorithm (search over ranks, reset and unit row on all ranks), order of SolverAlgorithmDriver | fold invariant of both scans; row algebra on the distributed system of C21/C22 |
| C128 | AssembleMomentumEdgeOpenSolverAlgorithm, residual | closed form of the loops, projection algebra |
| C129 | AssembleMomentumEdgeSymmetrySolverAlgorithm, MomentumSymmetryElemKernel, residual | closed forms; counterexample for include_divu |
| C130 | the same, matrix | closed form of the matrix row, exact error term; counterexamples (3-D open, skew symmetry) |
| C131 | AssembleScalarFluxBC, AssembleTemperatureNormalGradientBC, ComputeDynamicPressure | sums over faces; algebra |
| C132 | DataProbePostProcessing::load (rank of each probe), node vectors of initialize | arithmetic; counting residues |
| C133 | coordinates of a line of sight | fold of writes over a duplicate-free node vector |
| C134 | ring placement (nested loops with overwriting), compute_R, mat_vec | loop invariants; Rodrigues algebra |
| C135 | plane placement | fold of writes; division with remainder |
| C136 | execute, provide_output with banner/append | induction on the step history |
| C137 | SolutionNormPostProcessing load/execute: sums over ranks and nodes, file contents as a list of rows over runs | induction over node lists, Cauchy-Schwarz for the ordering |
| C138 | manufactured functions and sources as real functions of position, transcribed expression by expression; equations of motion in Spec/Pde | calculus rules for partial derivatives (Proofs/Pde), then ring |
| C139 | as C138 for the non-isothermal sources | as C138 |
| C140 | steady Taylor vortex, conduction and Boussinesq functions and sources | as C138, with trigonometric identities |
| C141 | convecting Taylor vortex, Kovasznay, wind-energy Taylor vortex functions; division by zero as Option | derivatives in space and time; the decay law for a Gaussian vortex; the quadratic for the Kovasznay rate |
| C142 | Taylor-Green initial functions | derivatives and double-angle formulas |
| C143 | every *FemKernel execute as nested folds over integration points, rows and columns | row/column sums of the loops (Proofs/Fem), then linearity of the quadrature |
| C144 | as C143 | residual rows are affine in the unknown with the matrix as slope |
| C145 | as C143 | the form is a quadrature of a symmetric non-negative integrand |
| C146 | as C143 | test with the constant function, whose gradient vanishes |
| C147 | face kernels and the inflow, open and penalty fluxes; meshes as lists of elements and faces | tested residual of a face; discrete divergence theorem |
| C148 | MomentumDiffFem, MomentumOpenAdvDiffFem | as C143; counterexample on a two-node bar; partial |
| C149 | ScalarPngFem, ScalarPngBcFem on a mesh | integration by parts of the discretization as hypothesis of the mesh, checked on a concrete bar |
| C150 | shape functions, derivatives and gradient operator of the three elements | ring identities; derivative of a quadratic; gradient operator chain rule (C41) |
| C151 | weights and points as in the constructors | moments by iterated integrals (beta integrals for the simplices); linearity over the monomials of an arbitrary polynomial; the Jacobian determinant as a polynomial |
| C152 | side node ordinals, side coordinate map, tangents, area and normal | ring identities on each side; Nanson formula |
| C153 | find_indx (with fuel), get_uk, set_knot_vector | loop invariant U[low] <= u < U[high]; induction over the knot loop |
| C154 | basis_funs with its scratch array | invariant per pass against Cox-de Boor; telescoping; Marsden by induction; coefficients compared as polynomials |
| C155 | LU::decompose, back_subs | loop invariants column by column; Doolittle equations |
| C156 | BSpline1D construction and value | collocation system + uniqueness + polynomial reproduction |
| C157 | sort_inputs | sorting lemmas |
| C158 | BSpline2D-5D as one recursive structure with mutation | equivalence ignoring overwritten control points; induction on the dimension |
| C159 | sym_diagonalize 2x2, matrix product and reconstruction in Model/Eigen | closed form with discriminant as a sum of squares; polynomial identities |
| C160 | Jacobi/quaternion loop with in-place update, pivot choice, three exits, 24 passes; SIMD overload over arbitrary lanes | loop invariant: unit quaternion, outputs are Q(q), Q^T A Q; update determinant w^2 nonzero; lane induction; counterexamples for diagonality |
| C161 | anisotropy, selection sort, perturb, reconstruct, stress | case analysis of the sort; conjugation invariance of trace and quadratic form; convexity |
| C162 | edge loop of AssembleScalarEigenEdgeSolverAlgorithm on top of Model/Edge | weighted sums over the assembly fold; affine identity; swap identity through output independence of the decomposition |
| C163 | distribution of lines over ranks, id counter, points of a line, rotation (ActuatorLinePointDrag.C:237-318, 648-747) | permutation of flatMap over ranks by induction on lines; rotation by ring and sin²+cos²=1 |
| C164 | set_current_velocity (752-764) | HasDerivAt of the position; uniqueness of derivatives for the refutation |
| C165 | compute_point_drag (176-205) | real powers, continuity of a piecewise function, sums of squares |
| C166 | compute_node_drag_given_radius, spread, execute (210-229, 387-512, 1029-1053) | Gaussian integral on EuclideanSpace from Mathlib; induction on the points of a rank |
| C167 | complete_search, assemble_lhs (793-864, 928-1026) | fold invariant with the first minimum; sum-preservation of the update loop |
| C168 | MomentumActuatorSrcElemKernel and the coefficient field | loop lemmas of Proofs/ElemKernel; fold invariant |
| C169 | the stress loops of the elastic kernel statement by statement (four scatters each) on an element given by its shape functions, gradients, area vectors and left/right maps | closed forms of rhs and matrix action by loop lemmas; equality with the textbook stress in Spec/MeshDisp |
| C170 | difference weights and loops of the mass kernel | closed form; polynomial algebra; counterexample factors |
| C171 | deformation gradient, invariants, determinants, implicit and explicit stress loops | closed form compared with the gradient of the stable neo-Hookean energy written in Spec/MeshDisp; adjugate identity |
| C172 | property registration list and the filling of constant properties | evaluation for arbitrary values |
| C173 | prediction, update loop with an arbitrary solver answer, current coordinates, mesh velocity | induction on the iterations; C04 for the weights |
| C174 | face loop of the pressure algorithm | closed form by loop lemmas |
| C175 | scalarNso, scalarKeNso loop by loop over the reals (Real.sqrt) | closed form of rhs and matrix action; algebra of quadratic forms for the viscosity bounds |
| C176 | momentumNso, momentumKe, momentumGrad via momentumWith | closed forms per component; residual algebra |
| C177 | momentumSij with the dilatation inside the node loop | closed form with multiplicity nn; partial, counterexample c177_expansion |
| C178 | femNso | closed forms; quadratic form of gradients |
| C179 | twodGij, threedGij, quadGijSimd | adjugate formula; sums of squares; counterexample for mixed SIMD packs |
| C180 | point values, limiter, DES length, assembly loops | loop sums; production = 2 mu_t S:S by algebra |
| C181 | clipped production with dilatation, both equations | loop sums; equality with tau:grad u |
| C182 | lumped and consistent subgrid kernels | loop sums; real powers |
| C183 | lumped shape functions, assembly over a list of elements | invariant of the assembled system by induction over elements |
| C184 | element kernels against node sources of Model/Turbulence | uniform state, partition of unity |
| C185 | kernel with persistent scratch; Rodi kernels | scratch independence, Lagrange identity |
| C186 | shared scratch accesses and interleavings | induction over blocks; explicit race |
| C187 | search boxes, ghosting, element loop, parallel and periodic sums, normalisation | list folds equal list sums; boxes equal the geometric relation |
| C188 | search pairs per rank, ghost lists, visibility, map construction | induction over the found pairs |
| C189 | per-point residual, element loop with the code's volume index, scatter, normalisation | loops equal sums; algebra; counterexample |
| C190 | update_input_mapping, query with the mutable buffer, node loop | induction over the name and coordinate lists |
| C191 | as C190 with converters; position lookup in the list being erased | list surgery for one converter; concrete wirings for the failures |
| C192 | std::set insertion ordered by severity, eviction, counter | invariant over the fold of queries |
| C193 | HStar, Chi and DeltaChi converters, inner table wiring | algebra; induction over streams |
| C194 | error function series and Newton inverse, F_chi, F_gamma in one and two mixture fractions | oddness of the loops; plane geometry with square roots |
| C195 | shape functions and derivatives as in the code | products of one-dimensional quadratics; ring identities |
| C196 | one-dimensional rule, tensor weights, shifted points | exactness for monomials |
| C197 | volume points, Jacobian, error flag | the Jacobian is cubic in each variable; Fubini-style sums |
| C198 | surface points, area vectors, boundary edges | chords from the two-point rule; telescoping per node |
| C199 | interior and boundary tables | membership in the generating loops, case split |
| C200 | quad_gradient_operator, Hex27 gradient | Cramer's rule over tangents |
| C201 | surface points, area vectors, faces | circulation form of the patch area; box closure; traces on sides |
| C202 | interior and boundary tables of Hex27 | index arithmetic of the opposing map; list congruence |
| C203 | volume points of Hex27 | degree bound for trilinear geometry; explicit curved element |
| C204 | writes with the code's offsets | stored-value lemma for blocks |
| C205 | Newton loop with solve22 | induction on iterations; affine case in two steps |
| C206 | loop bound of the volume gradient | as C200 for the first 24 points |
| C207 | flat arrays as functions from offsets, gathers as loops of stores, the assembly loops with the code's offsets | simulation relation between flat arrays and the kernels' two-dimensional local systems; injectivity of row-major offsets |
| C208 | the five boundary algorithms likewise | same relation; the branch on the flow direction against the kernels' masks |
| C209 | wall-function kernel, flat-array algorithm and edge algorithm over one face | simulation relation of C207/C208; lumped shape functions |
| C210 | same; reported force from Model/Forces | linearity in the velocity, projection identities, positivity of lambda |
| C211 | projected algorithm and its reporting algorithm | scatter sums, case split on odeFac |
| C212 | geometric grid and projected point | closed form of the geometric sum |
| C213 | forward and backward sweeps over a function of row numbers | elimination invariant, uniqueness by backward induction, dominance bound of the multipliers |
| C214 | compute_visc, assemble, dirichlet, tdma | row equations give equal stresses; telescoping resistance sum |
| C215 | solve loop with explicit state | monotone viscosity bounds, intermediate value theorem, induction over the loop and over call histories |
| C216 | complete_search per point as a fold over candidate pairs | fold invariant: best so far |
| C217 | setup_property as a left fold over visits (block, target, property), evaluate as running the pushed algorithms in order | induction over the visits; last writer wins |
| C218 | same, constants carried in the state | invariant of the constants in force; two concrete two-block inputs |
| C219 | property algorithms at a node | convexity, field_simp |
| C220 | gamma visit pushes three algorithms after every other property of the target | split of the visit list at the gamma visit |
| C221 | evaluator map as part of the state | invariant over visits |
| C222 | nodal loops of conductivity and effective coefficient | field_simp |
| C223 | loop over specifications | induction over the list |
| C224 | copy loop over a bucket | induction over entities and components |
| C225 | element loop with running maxima as folds; reduction over processes; Model/Time.adaptiveDt | folds equal maxima of flattened lists; uniqueness of the greatest element; Cauchy-Schwarz; orthogonal invariance |
| C226 | same with the speed of sound | same |
| C227 | integration-point formula with metric tensor of Model/Nso | quadratic form of S^T S; explicit inverse |
| C228 | van Leer limiter and mean | bounds 0..1 of the limiter |
| C229 | flat arrays with explicit offsets | list sums; index arithmetic by omega |
| C230 | integration-point and edge formulas | linear reproduction hypotheses; closed form of the edge value |
| C231 | bit patterns and the if-chains | case analysis on names |
| C232 | nodal maxima as a fold over edges | foldl max = max of the filtered list |
| C233 | pointer-advancing loop over buffers as functions of the index | induction over the points with frame conditions |
| C234 | parameter reading, lexicographic sort, clamp, lower_bound and the linear formula with the division flagged | strict sortedness from distinct abscissas, characterisation of lower_bound, uniqueness of sorted permutations |
| C235 | find_entry, bilinear formula, time factor | cell weights lemma; uniqueness of the interpolant on shared edges |
| C236 | the eof-controlled reading loop, extraction of the axes, the loading loop with bounds check | induction over columns and rows of the loading loop |
| C237 | both user functions including the local three-component arrays | unfolding against the mesh motion model, ring |
| C238 | the sum and its coefficients | term-by-term derivatives; Fourier sine series of the third Bernoulli polynomial split into even and odd terms |
| C239 | angle, recursive search with C++ integer division and fuel, interpolation, the 25 rows | search invariant by induction on the fuel; arcsin identities; kernel evaluation of the 25 rows |
| C240 | the formula | second derivatives of 1/R known near the point; monotonicity of 1/R |
| C241 | the five formulas over the reals | monotonicity of real powers, exponential and sine bounds |
| C242 | the formulas | partial derivatives; trigonometric periodicity; bound x exp(1-x) <= 1 |
| C243 | the formulas | case analysis; sine at odd multiples of pi/2 |
| C244 | the loops over flat arrays with all offsets | loop sums; row-major index injectivity |
| C245 | iteration of solve-and-add; the copy loops between scratch and storage | induction over iterations and components |
| C246 | integration point tables, area vectors, scatter to nodes, division by the assembled volume | local polynomial identity per element, local-to-global scatter lemma, cancellation on interior sides |
| C247 | as C246 with the solid elements and faces | affine reduction of all area vectors and volumes, polynomial identity per element, mesh cancellation |
| C248 | as C247 | partition of unity (C40) and closed dual volumes (C42); linearity of the scatter loops |
| C249 | assembled right-hand side and matrix of the mesh with the volume integration points | mesh identity of C247, row sums, exchange of sums |
| C250 | map updates, registration decision, the calls of each owner | case analysis over the finite owners and types, arbitrary maps and names |
| C251 | the per-rank sums, the reduction, the loop over the tethers and the assignment to the body | induction over the tethers; the totals of C109 |
| C252 | moving point, arm, distance and force of a tether, division by zero as a failure | orthogonality of the rotation (C47); derivative of the distance and of the squared positive part |
| C253 | the driver's zeroing and parallel sum of the area only, the point loops | sums over the fold; induction over the calls |
| C254 | cutting of the input list, filtering of the surface names | list lemmas |
| C255 | the loops of the kernel in their order | loop sums, exchange of sums |
| C256 | kernel loops, parameter reading, assembly over a list of elements | loop sums, exchange of sums over elements and points |
| C257 | interpolated coordinates, source expression (the text of the nodal forms, compared character by character), scatter | C138 and loop sums |
| C258 | the functions at a point, the pointer loop | monotonicity and bounds of the error function from its integral; partial derivatives; induction over points |
| C259 | one Gauss point with interpolated states of both sides, the loop with its carried workspaces | mirror symmetry of the AUSM split functions (C63), permutation of the point list |
| C260 | gradients, normals, penalty and momentum/energy rows as written | loop sums |
| C261 | stress workspaces carried from point to point | induction over the points |
| C262 | gather loops into a flat array, read positions of interpolatePoint | induction over the loops |
| C263 | YAML documents as trees, each decoder as the list of its get_if_present/required statements run in order | lookup invariance under permutation; induction over the function map |
| C264 | statement tables of the decoders with their key/member pairs | frame and effect lemma for any table with distinct members, induction |
| C265 | type map and specified map as updated by decode and function loop | effect lemma of the function map |
| C266 | failure as none | induction over the table |
| C267 | statement table of the open decoder | as C264 |
| C268 | the if/else chain | case analysis on the chain |
| C269 | loaders as folds over the document | induction over lists |
| C270 | the registrations as state transformers of the maps keyed by algorithm type, run over the input list | induction over the list with a step lemma per boundary kind |
| C271 | boundary data algorithms as node-wise writes in registration order, Dirichlet rows as identity rows | last-writer lemma by reverse induction, identity rows solved exactly |
| C272 | as C271 | case analysis of the row |
| C273 | registrations of the three systems, wall models writing after the boundary data | as C271 with the wall model as last writer; flag case analysis |
| C274 | registrations, conversion of the boundary temperature to enthalpy | as C271; the conversion leaves temperatures alone |
| C275 | name resolution of the register functions | induction over the blocks |
| C276 | contributions added then Dirichlet rows in map order | permutation of a commutative fold; induction over the map keys |
| C277 | the loop over the options list, the chain of option names, the maps and their getters | induction over the list; the chain reduces to a lookup for one-option entries |
| C278 | the vector-valued map readers | induction over the list |
| C279 | model lookup, default table, overriding lines | find? uniqueness, preservation of availability along the list, last-line induction |
| C280 | the get_if_present lines as a table and the dependent lines after it | fold over the table with distinct members; frames of the other stages |
| C281 | readers of the entries and of the pressure reference | case analysis of the readers, induction over the list |
| C282 | both branches with complex arithmetic, principal square and cube roots, the sign switch and division by zero | factorisation of the cubic by the three computed values; discriminant identity for a nonreal root |
| C283 | local sums, global reduction, quotient | list sums, weighted-mean bounds |
| C284 | integration-point contraction, element average, time filter, projection | symmetrisation, Cauchy-Schwarz, induction over the history |
| C285 | the guard on the old filter and the recursive mean | induction over the steps |
| C286 | the packed index map, the integration-point sum, the projection and the source selection | case analysis on the index map; list sums |
| C287 | all filtered quantities, ktest, L, M and the two constants | the filter is a positive normalised linear functional: variance and Cauchy-Schwarz |
| C288 | the lower bound with clipped kinetic energy and the viscosity formula | monotonicity of sqrt and of max |
| C289 | the same procedure on the boosted patch | linearity of the filter; partition of unity; Germano identity |
| C290 | integration-point gradient, nearest-node assembly, division by the dual volume | sum manipulation |
| C291 | the pointer loop and row-length lookup | induction over the list of lengths |
| C292 | the copy loops on the flat array | effect of the copies of one node as a formula; induction over the nodes |
| C293 | new lengths, compaction, recomputed pointers | segment lemma for the concatenation, sum comparison for the case with nothing to remove |
| C294 | records, packing, buffers, the two unpacking loops | round trip by induction over records and columns; membership in both directions |
| C295 | lengths after communication and the combined insertion sequence | block arithmetic for the lengths; the insertion invariant of C57 over the concatenated calls |
| C296 | the three appending loops, iteration of the ordered set | strict ordering of the set, list membership |
| C297 | the column map over ids made of whole nodes | uniqueness of sorted lists shows the id list is the expanded node list; position of an id in expanded blocks |
| C298 | the composition of connection lists, messages, column map and insertion | combination of C58, C294, C295 and C297 |
| C299 | reserved and packed byte counts | induction over the rows |
| C300 | the node lists handed to the connection routine | instances of the end-to-end theorem of C58 |
| C301 | both loops on flat arrays with strides n and n+1 | closed form of the arrays by induction over the nodes, division with remainder |
| C302 | state rotation, prediction, overwriting, iterations | induction over the iterations and steps |
| C303 | start-up with and without restart, state rotation | invariant over the steps |
| C304 | the loading of one specification | membership and prefix of the completed lists |
| C305 | type, specifications, loop | case analysis and induction over the specifications |
| C306 | the target and specification loops on lists of registrations | induction with monotonicity of the registry |
| C307 | names as strings, the update loop over pairs | cancellation of suffixes; induction over distinct names |
| C308 | the names read by the compute functions against the registry | C304 and C306 combined |
| C309 | the else-if chain as an ordered table, options with defaults | lookup in the table; pointwise relation of option lists |
| C310 | the item loop with the solution options threaded through | induction over the items |
| C311 | the checks with C remainder | divisibility of integers |
| C312 | the two loops | induction over fields and targets |
| C313 | the reader as a function of the parsed block | case analysis; induction over clip entries and pairs |
| C314 | queues per realm, loop over the transfers | induction over the transfers; closed form of every queue |
| C315 | the event sequence of the three loops | a state machine of legal sequences; induction over each loop |
| C316 | the list of executions of start-up and time loop | counting by induction over realms and steps, floor division |
| C317 | the registration loop with its map of algorithms and the shared log | induction over parts with an invariant; acceptance as an iff |
| C318 | both tables as functions of the topology | complete case analysis over the topologies, including an unbounded family of unsupported ones |
| C319 | maps with fresh addresses | invariant of the repository by induction over the history |
| C320 | the look-ahead loops and the reading of the same options | closed form of both readings by induction over the options |
| C321 | input trees, depth-first search returning places | structural induction; lexicographic order of places |
| C322 | per-rank arrays and reductions | induction over ranks and rows |
| C323 | a state machine of flag and residuals | induction over the history |
| C324 | the loops with an arbitrary solver | induction over species, passes and iterations |
| C325 | the order of operations with numerics as parameters, solver results as arbitrary lists | induction over the history with the geometry of the last gradient as ghost |
| C326 | the same scalar model with the gradient after the loop | induction over the history |
| C327 | the order of operations of the pair | induction over calls and passes |
| C328 | the order of operations with numerics as parameters | invariant linking the fields to the last logged continuity assembly |
| C329 | the order of operations with the lagged fields | invariant linking the lagged fields to the last logged continuity assembly |
| C330 | the nodal fields with the code's formulas and order | induction over the history; algebra of the perfect gas at the start |
| C331 | the order of operations with extraction and properties as parameters | induction over the history |
| C332 | the start-up loops over realms with partial writes | induction over the realms |
| C333 | coordinates, geometry, matching and graph with the searches as parameters | invariant by induction over the history |
| C334 | copy_tpetra_to_stk, the field synchronisation and the periodic update over the dof numbering of C18 | the row position theorem of C18 composed with the periodic and shared-field theorems |
| C335 | repeated solve-and-update on one node | induction over the iterations |
| C336 | copy_stk_to_tpetra over the dof numbering | the row position theorem; a concrete distributed mesh for the failing case |
| C337 | the map of point lists by wall name, filled and read by two traversals; the body of the point loop | invariant of the filling fold, then the reader's index |
| C338 | the states of a node on its owner and in the copy the wall's rank reads, rotated, predicted, updated and communicated in the code's order | induction over the steps: the copy equals the owner in all states at the end of every step |
| C339 | boxes, coarse search as all point-in-box pairs, ghost lists, fine search of C216 | convexity of boxes; membership in the pair list |
| C340 | rfind of the dot, the two names, opening the log before reading the input | induction on the name; split at the last dot |
| C341 | decimal names, streams and sinks, a run as a list of writes | digits in fixed width are lexicographically ordered; induction over the writes |
| C342 | the reader over YAML trees | case analysis against an independent specification of the values meant by a node |
| C343 | levels at a node through the start-up sequence | case analysis |
| C344 | the body of the node loop on bucket arrays | ordered-field reasoning, real powers |
| C345 | rows with global ids on processes, the reduced arrays, the state of each process | the reduced array at a row is the row's sum, by induction over rows and processes |
| C346 | a file as groups by path with attributes and data sets; writer and reader by recursion over the dimension | induction over dimension and list; group names are injective, groups of different splines are disjoint |
| C347 | one address space, buckets of a field with start, length, components and parts; the loops as folds | frame reasoning on addresses; induction over buckets and algorithms |
| C348 | one Gauss point with the two sides' shape functions and gradient operators | algebra over an ordered field; the linearisation theorem of the continuity row (C92) |
| C349 | solve33, the Newton loop with its iteration limit, both steps, both distances | induction over the iterations; the linearised equation from Cramer's rule; affine elements by completeness of the shape functions |
| C350 | one iteration on the entries of the four-node face, the loop, the rescaling and the distance | slopes of the componentwise affine residual of the four-node face; on bulged faces the iterates after the first share the first two coordinates |
| C351 | zeroing, face loops of the algorithms, parallel and periodic sums, division, writing of the nodal fields | fold over the additions, filtered sums over the concatenated faces, invariance under permutation |
| C352 | recording of surfaces by each kind of boundary condition, exposed part, selection of uncovered faces, throw | induction over the list of conditions; counting elements of a side |
| C353 | both field checks, the corners, the list of owned entities, ghosting and sending of values with mesh_modified_ | folds as conjunctions and as min/max; permutation of a filter; induction over the history |
