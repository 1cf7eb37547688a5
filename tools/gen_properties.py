#!/usr/bin/env python3
"""Writes /verif/properties.jsonl.  One entry per property:
   P(id, title, statement, quantifier, why_tests_cant, anchors)"""
import json, os
rows = []
def P(i, title, statement, quantifier, why, anchors):
    rows.append(dict(id=i, title=title, statement=statement, quantifier=quantifier,
                     why_tests_cant=why, anchors=anchors))

LS = "source/line_search.cc"; LSH = "include/gCP/line_search.h"
SOL = "source/gradient_crystal_plasticity/solve.cc"
GH = "include/gCP/gradient_crystal_plasticity.h"
AS = "source/gradient_crystal_plasticity/active_set.cc"
SET = "source/gradient_crystal_plasticity/setup.cc"
QH = "source/gradient_crystal_plasticity/quadrature_point_history.cc"
QHH = "include/gCP/quadrature_point_history.h"
CL = "source/constitutive_laws.cc"; CLH = "include/gCP/constitutive_laws.h"
CD = "source/crystal_data.cc"; FE = "source/fe_field.cc"; UT = "source/utilities.cc"
BC = "source/boundary_conditions.cc"; RP = "source/run_time_parameters.cc"
ASM = "source/gradient_crystal_plasticity/assembly.cc"; PP = "source/postprocessing.cc"
SS = "applications/simple_shear.cc"

P("C01", "Backtracking step lengths stay inside the safeguard interval",
  "Every step length returned by LineSearch::get_lambda that is a number lies in [0.1, 0.5] for the first call after reinit and in [0.1, 0.5] times the step length passed in for every later call; hence after k calls of the solver's loop the relaxation parameter lies in [0.1^k, 0.5^k] and is strictly smaller than before.",
  "all objective values (finite or not), all initial values, all call histories of any length",
  "objective values are arbitrary reals and histories are unbounded; a test samples a few function shapes",
  [LS+": LineSearch::get_lambda, quadratic_backtracking, cubic_backtracking"])
P("C02", "The line-search loop always terminates and says why",
  "Whatever residual norms the assembly produces, the solver's line-search loop stops after at most n_max_iterations + 1 interpolation steps, and when it stops either the returned relaxation parameter satisfies the sufficient-decrease condition f(lambda) < f(0) + alpha*lambda*d with d = -2 f(0), or the iteration limit was exceeded.",
  "all sequences of residual norms, all alpha, all iteration limits",
  "termination over every residual sequence is a universal statement about a loop",
  [LSH+": suficient_descent_condition", SOL+": line_search_algorithm", LS+": reinit, get_lambda"])
P("C03", "The line search never returns a step length that is not a number",
  "When get_lambda is called only after a failed sufficient-decrease test (as the solver does), with a positive initial objective and 0 < alpha <= 1/4, the step length is a number: the quadratic denominator is positive and the cubic's radicand is non-negative.",
  "all objective histories in which every sufficient-decrease test failed",
  "depends on an inequality between coefficients for all real objective values; the failing histories form a thin set no sampled test hits",
  [LS+": quadratic_backtracking, cubic_backtracking", SOL+": line_search_algorithm"])
P("C04", "Unclamped step lengths minimise the interpolating polynomial",
  "A first step length that is not clamped minimises the parabola through f(0), f'(0) and the last trial value; a later unclamped step length is the local minimiser of the cubic through f(0), f'(0) and the last two trial values.",
  "all initial values, slopes, trial values and distinct positive step lengths",
  "an identity over all real data",
  [LS+": quadratic_backtracking, cubic_backtracking"])
P("C05", "The line search leaves the trial solution at accepted-solution plus lambda times the Newton update",
  "After the solver's line search on a block returns relaxation parameter lambda, that block of the trial solution equals the stored (pre-update) solution plus lambda times the Newton update of that block, and the other block is the one before the line search.",
  "all solution vectors, updates, numbers of backtracking steps, both blocks of the staggered schemes, constraints without effect on the block's unconstrained dofs",
  "needs more than one backtracking iteration in the right block; holds/fails for every vector",
  [SOL+": line_search_algorithm, reset_trial_solution, update_trial_solution", GH+": reset_trial_solution default argument"])
P("C06", "A monolithic Newton step is applied to every degree of freedom",
  "update_trial_solution(lambda) used by the monolithic algorithm adds lambda times the Newton update to displacement and slip degrees of freedom alike, in every block layout the application can construct.",
  "all trial solutions, updates and both block layouts (single block; displacement and slip blocks)",
  "the block layout depends on the linear-solver choice; tests of one layout say nothing about the other",
  [SOL+": update_trial_solution(double), monolithic_algorithm", SS+": SimpleShearProblem constructor"])
P("C07", "The rate-dependent monolithic Newton loop terminates, and only with a converged residual",
  "For rate-dependent behaviour the monolithic algorithm performs at most n_max_iterations Newton iterations; it either returns with the residual norm at the returned trial solution below the absolute tolerance or throws ExcMaxIterations, and it throws exactly when none of the first n_max iterations reached the tolerance.",
  "all residual functions, all linear-solver and line-search behaviours, all limits and tolerances",
  "quantifies over arbitrary nonlinear systems and solver outcomes",
  [SOL+": monolithic_algorithm"])
P("C08", "The rate-independent monolithic loop returns only with a self-consistent active set, and terminates",
  "For rate-independent behaviour the algorithm returns only if the residual is below tolerance and the active set recomputed at the solution equals the one used; and it terminates for every system.",
  "all residual functions, active-set functions and start values",
  "restarts are unbounded: termination cannot be observed by running",
  [SOL+": monolithic_algorithm", AS+": active_set_algorithm"])
P("C09", "The bouncing algorithm returns only when both balances hold at the same solution, within a bounded number of solves",
  "bouncing_algorithm returns only if the macro and the micro residual norm, evaluated at the returned trial solution, are both below their tolerances; it never accepts the residual left over from the previous time step; and it returns or throws after a number of linear solves bounded by the parameters.",
  "all macro/micro update maps, residual functions, limits and tolerances, any stale initial residual",
  "alternation of two nested loops with arbitrary update maps",
  [SOL+": bouncing_algorithm"])
P("C10", "The embracing algorithm returns only when both balances hold at the same solution, within a bounded number of solves",
  "embracing_algorihtm returns only if macro and micro residual norms at the returned trial solution are below their tolerances, and it returns or throws within n_macro*(1+n_micro) linear solves.",
  "all macro/micro update maps, residual functions, limits and tolerances",
  "nested loops with arbitrary update maps",
  [SOL+": embracing_algorihtm"])
P("C11", "The extrapolated start value is exact for linear histories and is the old solution when skipped",
  "If the last two accepted solutions lie on a line in time, the start value with extrapolation factor 1 is the value of that line at the next time, for any step sizes; on the first step (equal histories) and when extrapolation is skipped the start value is the last accepted solution; and the stored update is start value minus last solution.",
  "all solution vectors, positive step sizes and factors, skipped or not",
  "identity over all vectors and step sizes",
  [SOL+": extrapolate_initial_trial_solution"])
P("C12", "The solution history always holds the last two accepted steps",
  "After any number of solve/update_solution_vectors/advance cycles, old_solution is the solution accepted at the last step and old_old_solution the one of the step before (both zero-initialised).",
  "all step counts and all sequences of accepted solutions",
  "unbounded histories",
  [FE+": update_solution_vectors", SOL+": solve_nonlinear_system", SS+": run"])
P("C13", "The active set is exactly the set of over-yield slip degrees of freedom (plus their masters)",
  "After the active-set determination a slip degree of freedom is active if and only if its trial microstress exceeds its yield value in modulus and it is unconstrained or identity-constrained, or it is the identity master of such a degree of freedom; exact equality with the yield value is inactive; under perfect plasticity the yield value is the initial slip resistance.",
  "all meshes, trial microstresses, slip resistances and identity constraints",
  "quantifies over all dof layouts and stress states",
  [AS+": determine_active_set"])
P("C14", "Active degrees of freedom are free and inactive ones are pinned in the Newton update",
  "After the determination every owned slip degree of freedom that is not active carries a zero Newton-update constraint and no active one does.",
  "all dof numberings, identity constraints and trial microstresses",
  "the failing case needs a master numbered before its slave; numbering is up to the mesh and partitioner",
  [AS+": determine_active_set"])
P("C15", "Active and inactive sets are disjoint and cover the free slip degrees of freedom",
  "The inactive set is disjoint from the active set, and together they contain every owned slip degree of freedom that is unconstrained or identity-constrained; rate-dependent runs have every owned slip degree of freedom active.",
  "all meshes, constraints and stress states",
  "set-level statement over all layouts",
  [AS+": determine_inactive_set, active_set_algorithm"])
P("C16", "Deactivating a slip resets it to the last accepted value and touches nothing else",
  "reset_inactive_set_values assigns the old solution's value to every inactive degree of freedom and leaves all others unchanged; doing it twice is the same as once.",
  "all solution vectors and inactive sets",
  "frame condition over all vectors",
  [AS+": reset_inactive_set_values"])
P("C17", "Slip resistance follows the linear hardening law from the last accepted state",
  "After update_values the slip resistance of system a equals the stored value plus sum over b of H/c*(q + (1-q)[a=b])*|gamma_b - gamma_b_old|; under perfect plasticity it equals the stored value.",
  "all slip counts, slip values, parameters and call histories since the last store_current_values",
  "call histories (Newton and line-search iterations) are unbounded",
  [QH+": QuadraturePointHistory::update_values"])
P("C18", "Re-evaluating a trial state gives the same bulk internal variables; rejected trials leave no trace",
  "Any sequence of update_values and reset_values calls since store_current_values followed by update_values with slips g gives the same slip resistances as that last call alone, and reset_values restores the stored values.",
  "all call sequences of any length",
  "unbounded sequences of trial evaluations",
  [QH+": update_values, reset_values, store_current_values", ASM+": reset_and_update_quadrature_point_history"])
P("C19", "Slip resistance never decreases over a simulation",
  "With non-negative hardening modulus and 0 <= q, every slip resistance at every accepted step is at least its value at the previous accepted step and at least the initial slip resistance.",
  "all load histories of any length, all slip counts",
  "unbounded histories",
  [QH+": QuadraturePointHistory", SOL+": solve_nonlinear_system"])
P("C20", "Slip resistances at degrees of freedom follow the same law as at quadrature points",
  "reset_and_update_slip_resistances gives every active degree of freedom the stored value plus the hardening sum over the slip systems at its support point and gives inactive ones the stored value; re-evaluation is idempotent.",
  "all active sets, trial and old solutions",
  "quantifies over dof layouts and histories",
  [SET+": reset_and_update_slip_resistances, store_slip_resistances"])
P("C21", "Ortiz damage is irreversible, lies in [0,1) and depends only on the largest opening reached",
  "Under the OrtizEtAl model the interface damage after any history of accepted steps is 1-(1+r)exp(-r) with r the largest effective opening displacement so far over the critical one; it lies in [0,1) and never decreases; the stored maximum is the running maximum.",
  "all histories of opening displacements of any length, all positive critical displacements",
  "unbounded histories, real-valued function",
  [QH+": InterfaceQuadraturePointHistory::update_values(double), store_current_values"])
P("C22", "Re-evaluating a trial state gives the same Ortiz interface variables; rejected trials leave no trace",
  "Any sequence of update and reset calls since store_current_values followed by an update with opening d gives the same damage and maximum opening as that update alone.",
  "all call sequences of any length",
  "unbounded sequences of trial evaluations",
  [QH+": InterfaceQuadraturePointHistory::update_values, reset_values"])
P("C23", "The same holds for the M1 damage model and its damage stays in [0,1] and never decreases",
  "Under the M1 model damage stays in [0,1], never decreases, and re-evaluating the same trial state gives the same damage.",
  "all histories and parameter values accepted by the parameter file",
  "needs specific energy/threshold combinations and repeated evaluation",
  [QH+": InterfaceQuadraturePointHistory::update_values(double,double,double)", ASM+": update_local_quadrature_point_history"])
P("C24", "Interface variables do not depend on the order or interleaving in which the two cells of a face update them",
  "The two cells sharing a grain-boundary face both update the face's shared history, from worker threads. For the Ortiz model every interleaving of the two updates ends with the state of a single update.",
  "all interleavings of the two cells' updates, all openings",
  "races depend on scheduling; a test run shows one schedule",
  [ASM+": update_local_quadrature_point_history", QH+": update_values", QHH+": InterfaceDataStorage"])
P("C25", "Both cells of a grain-boundary face see the same interface data, and different faces never share it",
  "get_data(a,b) and get_data(b,a) return the same records for every pair of cells; pairs of cells that are different as unordered pairs get different records; initialisation creates records exactly for the grain-boundary faces, once each, and re-initialising keeps existing ones.",
  "all meshes, cell ids and visiting orders",
  "statement about all meshes and all query orders",
  [QHH+": InterfaceDataStorage", QH+": InterfaceDataStorage::initialize, get_data"])
P("C26", "Each regularisation is an odd, strictly increasing, bounded approximation of the sign function",
  "For each of atan, sqrt, gd, tanh, erf and positive parameter k the regularised sign is odd, strictly increasing, of modulus below 1, and has the sign of its argument.",
  "all real arguments, all positive parameters, all five functions",
  "statement over all reals",
  [UT+": sigmoid_function", CL+": ScalarMicrostressLaw::get_regularization_function_value"])
P("C27", "The regularisation derivative used in the tangent is the derivative of the regularisation",
  "sigmoid_function_derivative(x,k,f) is the derivative of sigmoid_function(.,k,f) at x, is positive, and equals 1/k at 0.",
  "all real arguments, all positive parameters, all five functions",
  "limit statement over all reals",
  [UT+": sigmoid_function, sigmoid_function_derivative"])
P("C28", "The scalar microstress is dissipative and bounded by the slip resistance",
  "For non-negative slip resistance g and positive time step, the microstress times the slip increment is non-negative, its modulus never exceeds g, and it vanishes with the increment; in the rate-independent case the modulus is g whenever the slip changes.",
  "all slips, resistances, step sizes, regularisations",
  "thermodynamic inequality over all states",
  [CL+": ScalarMicrostressLaw::get_scalar_microstress"])
P("C29", "The scalar microstress tangent is the derivative of the hardening microstress",
  "Where no slip increment vanishes, entry (a,b) of get_jacobian is the partial derivative with respect to slip b of the microstress of system a, including the dependence of the slip resistance on all slip increments.",
  "all slip counts, slips, parameters and regularisations",
  "derivative statement over all states",
  [CL+": ScalarMicrostressLaw::get_jacobian, get_scalar_microstress", QH+": QuadraturePointHistory::update_values"])
P("C30", "The vectorial microstress derives from a convex defect energy",
  "The vectorial microstress of a slip system lies in its slip plane, its power over the slip gradient is non-negative, it is the gradient of a non-negative energy with prefactor initial slip resistance times length scale to the power of the index, and get_jacobian is its derivative and is symmetric positive semidefinite.",
  "all slip gradients, orthonormal slip systems, defect energy indices >= 2",
  "derivative and sign statements over all gradients",
  [CL+": VectorialMicrostressLaw"])
P("C31", "Hooke's law has the symmetries of elasticity and is frame indifferent",
  "The stiffness of every crystal has minor and major symmetries, and the rotated stiffness applied to the rotated strain is the rotated stress of the unrotated crystal; for isotropic constants it is independent of the orientation.",
  "all rotations, strains and elastic constants",
  "identity over all rotations and tensors",
  [CL+": HookeLaw::init, get_stress_tensor"])
P("C32", "Accepted elastic constants give a positive elastic energy",
  "Whenever the parameter file is accepted, the elastic energy of every non-zero strain is positive.",
  "all accepted constants and strains",
  "quantifies over all constants and strains",
  [RP+": HookeLawParameters::parse_parameters", CL+": HookeLaw"])
P("C33", "Total strain splits into elastic and plastic part, and the plastic part is volume preserving",
  "get_elastic_strain_tensor plus the first dimensionless number times get_plastic_strain_tensor is the total strain, for any number of slips; the plastic strain is symmetric with zero trace when slip directions and normals are orthogonal.",
  "all strains, slips, slip counts and orthogonal slip systems",
  "identity over all states",
  [CL+": ElasticStrain::get_elastic_strain_tensor, get_plastic_strain_tensor", CD+": compute_slip_systems"])
P("C34", "Slip systems handed to the laws are orthonormal triads in the crystal's orientation",
  "For every accepted input the rotated slip direction and normal are unit vectors orthogonal to each other, in 3D the third vector completes them to an orthonormal triad, and the Schmid tensor is trace free. Orientations follow the documented convention: angles in degrees, counter-clockwise in 2D, about third, first and third axis in 3D.",
  "all Euler angles and all accepted slip-system files, 2D and 3D",
  "acceptance test is tolerance based; must hold for every input vector",
  [CD+": CrystalsData::init, read_and_store_data, compute_rotation_matrices, compute_slip_systems"])
P("C35", "The resolved shear stress is the shear traction on the slip plane in slip direction, and work conjugate to slip",
  "get_resolved_shear_stress(sigma) equals s . sigma m and sigma : plastic strain equals the sum of resolved shear stresses times slips.",
  "all symmetric stresses, slip systems, slips",
  "identity over all tensors",
  [CL+": ResolvedShearStressLaw", CD+": compute_slip_systems"])
P("C36", "Grain interaction moduli are bounded and mutually consistent",
  "Intra-grain moduli are symmetric and bounded by 1 in modulus, inter-grain moduli seen from the two sides of a face are transposes of each other, and crystals of equal orientation have equal intra- and inter-grain moduli. Their value is the product of the slip directions with the product of the slip plane normals projected on the boundary.",
  "all slip systems, orientations and interface normals, 2D and 3D",
  "identity and inequality over all vectors",
  [CL+": MicrotractionLaw::get_grain_interaction_moduli"])
P("C37", "The microscopic traction derives from a non-negative interface energy",
  "The interface free energy is non-negative and a quadratic form in the slips of both grains; the microtraction is minus its derivative with respect to the slips of the current grain (characteristic scaling 1), get_intra/inter_gateaux_derivative are its derivatives, and the energy does not depend on which grain is called the current one.",
  "all slips, slip systems and normals",
  "derivative identities over all states",
  [CL+": MicrotractionLaw::get_microtraction, get_free_energy_density, get_intra_gateaux_derivative, get_inter_gateaux_derivative"])
P("C38", "The cohesive traction follows the Smith-Ferrante law, unloads to the origin and is continuous between branches",
  "On the loading branch the scalar traction is tc*(d/dc)*exp(1-d/dc), never exceeds tc, is attained at dc, and is the derivative of get_free_energy_density; on unloading it is linear in the opening and both branches agree at the maximum opening.",
  "all openings, maxima, critical parameters",
  "calculus statement over all reals",
  [CL+": CohesiveLaw::get_cohesive_traction, get_free_energy_density"])
P("C39", "The cohesive traction is defined for every opening state the solver passes",
  "get_cohesive_traction returns a vector of numbers for every opening displacement, maximum and previous effective opening the solver can pass, including the closed interface.",
  "all opening vectors, histories and step sizes",
  "needs exact zeros of the state",
  [CL+": CohesiveLaw::get_cohesive_traction, get_effective_opening_displacement, get_effective_quantities"])
P("C40", "The cohesive traction is equal and opposite seen from the two sides of the interface",
  "Exchanging the two cells (negating the opening vector and the normal) negates the cohesive and the contact traction and leaves the effective opening displacement unchanged.",
  "all opening vectors, normals and histories",
  "symmetry over all vectors",
  [CL+": CohesiveLaw, ContactLaw", ASM+": assemble_local_residual"])
P("C41", "The previous effective opening stored at the end of a step is the one the cohesive law measures",
  "store_effective_opening_displacement records the value CohesiveLaw::get_effective_opening_displacement gives for the same opening and normal.",
  "all opening vectors and unit normals",
  "differs only in compression",
  [QH+": store_effective_opening_displacement", CL+": CohesiveLaw::get_effective_opening_displacement"])
P("C42", "Contact traction resists penetration only, and its tangent is its derivative",
  "The contact traction vanishes for opening interfaces, is directed against the penetration and proportional to it otherwise, continuous at closure, and get_jacobian is its derivative away from closure.",
  "all opening vectors, unit normals, penalty coefficients and characteristic quantities",
  "statement over all reals; only wrong for characteristic displacement other than 1",
  [CL+": ContactLaw::get_contact_traction, get_jacobian"])
P("C43", "The degradation function maps damage in [0,1] to [0,1], decreasing, with the right derivative",
  "For coupled interfaces the degradation factor is 1 at no damage, 0 at full damage and antitone; uncoupled it is constantly 1; get_degradation_function_derivative_value is its derivative in both cases.",
  "all damages in [0,1], exponents >= 1, coupled or not",
  "calculus statement over all reals",
  [CLH+": DegradationFunction"])
P("C44", "Vector components are laid out without gaps or overlaps",
  "The displacement and slip extractors of all crystals address pairwise disjoint component ranges that together are exactly 0..n_components-1, with and without decohesion, and the component lookup returns for each local component the displacement direction or dim plus the slip id it belongs to.",
  "all dimensions, crystal and slip counts, both decohesion settings",
  "index arithmetic over all counts",
  [FE+": setup_extractors, setup_dofs", "include/gCP/fe_field.h: get_global_component"])
P("C45", "Displacement and slip degrees of freedom partition the owned ones, and sub-norms combine to the norm",
  "Every owned degree of freedom is either a displacement or a slip degree of freedom, never both; the two sub-norms squared add up to the squared norm in both block layouts.",
  "all dof layouts, vectors, process counts",
  "identity over all vectors and partitions",
  [FE+": setup_dofs, get_sub_l2_norms, get_l2_norm"])
P("C46", "The time steps of a load programme add up to its duration and hit the phase boundaries",
  "Following get_next_time_step_size from the start time, the accumulated time after the prescribed number of steps is exactly the end time, phase starts are hit exactly, and every step is positive.",
  "all step counts, cycle counts, durations, both loading types, with or without unloading",
  "sums over unbounded step counts",
  [RP+": SimpleLoading::parse_parameters, get_next_time_step_size"])
P("C47", "Extrapolation is skipped exactly at load reversals and phase changes",
  "skip_extrapolation(n) is true exactly at the first step of the cyclic and of the unloading phase and at the cyclic steps at which a quarter of the period, or three quarters, have elapsed.",
  "all step numbers, cycle counts, steps per quarter period",
  "modular arithmetic over all step numbers",
  [RP+": SimpleLoading::skip_extrapolation"])
P("C48", "The prescribed boundary displacement follows the load programme of the parameter file",
  "DisplacementControl prescribes time*height*max_load for monotonic loading and the cyclic programme for cyclic loading, on the loaded component of every crystal's displacement and zero elsewhere.",
  "all times, components, crystal counts and loading types",
  "universal over time and components",
  [BC+": DisplacementControl"])
P("C49", "Every cell belongs to exactly one crystal, crystals are the equal strips in order",
  "make_grid assigns a cell with centre 0 <= y < height the material id i exactly if i*height/n <= y < (i+1)*height/n; ids are below the crystal count and monotone in y.",
  "all cell centres, heights and crystal counts",
  "universal over cells and counts",
  [SS+": make_grid"])
P("C50", "The assembled bulk Jacobian is the derivative of the assembled residual",
  "At every cell the local matrix of assemble_jacobian is minus the derivative of the local right-hand side of assemble_residual with respect to the local degrees of freedom, including hardening, where slip increments do not vanish.",
  "all shape functions, quadrature rules, states and parameters",
  "derivative identity over all states; finite differences test single states up to tolerance",
  [ASM+": assemble_local_jacobian, assemble_local_residual"])
P("C51", "The assembled Jacobian is symmetric when the material tangent is",
  "The displacement-slip and slip-displacement blocks are transposes of each other and the local matrix is symmetric whenever the microstress tangent is; the tangent is symmetric for rate-independent behaviour.",
  "all shape functions, states and dimensionless numbers",
  "identity over all states",
  [ASM+": assemble_local_jacobian", CL+": ScalarMicrostressLaw::get_jacobian"])
P("C52", "Grain-boundary tractions do no net work on rigid joint motion and balance across the interface",
  "The displacement contributions assembled from the two sides of a face cancel for test functions continuous across the interface, never do positive work on the opening, and the slip contributions of both sides are minus the gradient of one stored interface energy.",
  "all states, normals and test functions",
  "identity over all states",
  [ASM+": assemble_local_residual grain boundary integral"])
P("C53", "The finite-difference check of the Jacobian reproduces the analytical displacement blocks",
  "compute_difference_quotients_jacobian_approximation yields exactly the analytical entries in the blocks that are linear in the unknowns, for every step length.",
  "all states, step lengths, dimensionless numbers and macroscopic strains",
  "identity over all states",
  [ASM+": compute_difference_quotients_jacobian_approximation"])
P("C54", "Projected and averaged damage stay within the damage values",
  "The lumped projection of the damage and the macroscopic damage lie between the smallest and largest quadrature-point damage.",
  "all meshes, non-negative partition-of-unity shape functions, positive weights",
  "convexity over all data; uninitialised storage shows only under particular memory contents",
  [ASM+": assemble_local_projection_matrix, assemble_local_projection_rhs, get_macroscopic_damage"])
P("C55", "The von Mises measures vanish exactly for hydrostatic states and ignore pressure",
  "The von Mises stress is non-negative, unchanged by adding pressure, zero exactly for hydrostatic stress, positively homogeneous; the homogenised table's value is that of the three-dimensional stress state.",
  "all stresses",
  "algebraic identity over all tensors",
  [PP+": Postprocessor::get_von_mises_stress, Homogenization::update_table_handler_values"])
P("C56", "Homogenised quantities are volume averages",
  "Homogenised stress and strain of uniform fields are the uniform values, bounded by the extreme values otherwise, additive over any partition of cells among processes, and the stress splits into macroscopic-strain stress plus fluctuation.",
  "all meshes, quadrature weights, fields and partitions among processes",
  "identity over all meshes and partitions",
  [PP+": Homogenization::compute_macroscopic_stress"])
P("C57", "The reported boundary shear stress is the surface average, and the reported load is the applied one",
  "SimpleShear reports the average of the shear stress over the loaded face and the shear applied by the boundary condition.",
  "all uniform stress states, 2D and 3D meshes, all times and loading types",
  "3D and cyclic cases only",
  [PP+": SimpleShear::compute_stress_12_at_boundary, compute_data", SS+": SimpleShearProblem constructor, make_grid", BC+": DisplacementControl"])
P("C58", "Output columns are complete, non-overlapping and carry physical units",
  "The postprocessor declares as many names as interpretations and as it writes quantities, each written slot is written once, and every stress-like slot is the dimensionless value times the characteristic stress.",
  "all dimensions, slip counts and output flags",
  "index arithmetic for all counts",
  [PP+": Postprocessor::get_names, get_data_component_interpretation, evaluate_vector_field"])
P("C59", "The log prints every declared column, in declaration order, with its latest value",
  "After any sequence of declare_column and update_value calls a log line contains exactly the declared columns in declaration order with the values last written; declaring a column twice is rejected and loses nothing.",
  "all call sequences",
  "unbounded call sequences",
  [UT+": Logger"])
P("C60", "files_are_identical is equality of existing files",
  "files_are_identical returns true exactly if both files can be opened and have the same bytes.",
  "all file contents and open failures",
  "universal over byte strings",
  [UT+": files_are_identical"])
P("C61", "Accepted solver parameters are usable and dimensionless numbers are consistent",
  "Accepted Newton and Krylov tolerances satisfy 0 < absolute < relative, line-search constants 0 < alpha < beta < 1; with the dimensionless form the characteristic quantities satisfy stress = stiffness*displacement/length and the dimensionless numbers are the stated ratios; without it all are 1.",
  "all parameter values",
  "universal over parameters",
  [RP+": parse_parameters, DimensionlessForm::init"])
P("C62", "The Krylov tolerance never asks for less than the absolute and never more than the relative accuracy",
  "The tolerance handed to the linear solver is max(relative*|rhs|, absolute), positive for every accepted parameter set, so a solve of a zero right-hand side terminates.",
  "all right-hand sides and accepted parameters",
  "universal over right-hand sides",
  [SOL+": solve_linearized_system, solve_decoupled_linearized_subsystem, solve_reduced_linearized_system"])
P("C63", "A solution handed to the user satisfies the boundary conditions",
  "Whatever the solution algorithm and line search did, the accepted solution satisfies the affine constraints of the step.",
  "all updates, relaxation parameters and iteration counts",
  "holds for every iteration history",
  [SOL+": update_trial_solution, reset_trial_solution, distribute_affine_constraints_to_trial_solution, solve_nonlinear_system"])

P("C64", "All processes leave the Newton loop together",
  "In a parallel rate-independent run every process takes the same decision whether the Newton iteration is finished, so that no process waits for ever in a collective operation the others do not enter.",
  "all process counts, all active sets before and after recomputation",
  "needs a run in which the active set changes on some processes only",
  [SOL+": solve_nonlinear_system", AS+": active_set_algorithm, determine_active_set"])
P("C65", "The cohesive tangent is the derivative of the cohesive traction",
  "CohesiveLaw::get_jacobian is the derivative of get_cohesive_traction with respect to the opening displacement on the loading branch (the maximum opening following the opening) and on the unloading branch.",
  "all opening vectors with non-zero normal part, unit normals, histories and parameters",
  "derivative identity over all states; only wrong for characteristic displacement other than 1",
  [CL+": CohesiveLaw::get_jacobian, get_cohesive_traction"])

P("C66", "The linear system handed to the conjugate gradient solver is positive semidefinite",
  "For admissible material parameters the local tangent matrix has a non-negative quadratic form, and a positive one (up to rigid motions) in rate-dependent behaviour with positive slip resistance; so does its slip block, which the block solver inverts by conjugate gradients.",
  "all states, elements, orientations, nodal vectors and accepted parameters",
  "an inequality over all states and vectors; indefiniteness shows only for particular slip activity",
  [ASM+": assemble_local_jacobian", SOL+": solve_linearized_system, solve_reduced_linearized_system", RP+": HardeningLaw"])
P("C68", "The interface part of the Newton matrix is the derivative of the interface residual",
  "The diagonal and coupling blocks assembled at a grain boundary face are minus the derivative of the residual assembled there, including the update of the interface record (maximum opening, damage) at the trial state.",
  "all openings, normals, records, slips, variations of both cells, laws and coupling flags",
  "a derivative identity over all states; a wrong tangent only slows Newton down in tests",
  [ASM+": assemble_local_jacobian, assemble_local_residual, update_local_quadrature_point_history grain boundary integrals"])
P("C69", "A uniform stress is in equilibrium with matching boundary tractions",
  "If set_neumann_boundary_condition prescribes the traction of a uniform stress state (in units of the characteristic stress, as the stress itself), the residual of that state vanishes.",
  "all uniform stresses, elements, faces and dimensionless numbers",
  "an identity over all states; no application exercises Neumann boundaries",
  [ASM+": assemble_local_residual boundary integral", RP+": DimensionlessForm::init"])

P("C70", "Reported strain is reported elastic strain plus reported plastic strain",
  "In the output files the strain components equal the elastic strain components plus the plastic strain components, in physical and in dimensionless output.",
  "all solution states, parameters and output flags",
  "an identity over all states and parameters",
  [PP+": Postprocessor::evaluate_vector_field, Postprocessor constructor"])
P("C71", "The reported stress is the stress of the equilibrium equations",
  "The stress components written to the output files are the characteristic stress times the stress the assembly computes from the same displacement gradient and slips; in 2D this holds for the in-plane components although the output uses the three-dimensional stiffness.",
  "all states, orientations and elastic constants",
  "an identity over all states and orientations",
  [PP+": Postprocessor::evaluate_vector_field", CL+": HookeLaw::get_stress_tensor, get_stiffness_tetrad_3d"])

P("C72", "Solving the dimensionless problem is solving the physical problem",
  "Switching on the dimensionless form with any positive reference values changes the equations only by units: a state solves the dimensionless equations if and only if the rescaled state solves the equations assembled without the dimensionless form.",
  "all materials, reference values, meshes, states and histories",
  "an equivalence over all states and reference values",
  [RP+": DimensionlessForm::init", ASM+": assemble_local_residual", "source/gradient_crystal_plasticity/setup.cc: init (vectorial_microstress_law->init)", CL+": VectorialMicrostressLaw::init, HookeLaw::init"])
P("C73", "The applied shear is the programmed shear for every choice of units",
  "When the strip is sheared homogeneously by the prescribed boundary displacement, the reported physical shear strain is the shear of the loading programme, whatever the reference values.",
  "all reference values, heights, times and loads",
  "universal over reference values; tests run with one set of units",
  [BC+": DisplacementControl::vector_value", SS+": setup (displacement_control)", RP+": DimensionlessForm::init"])

P("C74", "All boundary conditions hold in every accepted solution of a load history",
  "In every converged solution of a load step the displacement at the upper boundary has its prescribed value, all other Dirichlet degrees of freedom are zero and periodic partners have equal values.",
  "all numbers of load steps, Newton iterations, line-search damping factors, linear-solver results and active sets",
  "an invariant of every history of updates; tests look at one final state",
  [SS+": setup_constraints, update_dirichlet_boundary_conditions", "source/gradient_crystal_plasticity/active_set.cc: determine_active_set, determine_inactive_set, reset_internal_newton_method_constraints", SOL+": update_trial_solution"])

P("C75", "Results are written for every k-th step and for the last one",
  "A run of any load programme ends and has then written a solution file for every step that is a multiple of the graphical output frequency and for the final step, each once and in order, homogenised rows by the same rule with their own frequency, and one row of the shear table per step; the parameter file is the argument if it ends in .prm.",
  "all load programmes with positive durations, output frequencies and arguments",
  "a statement about all programmes and frequencies; the time stepping may change the number of steps",
  [SS+": run, postprocessing, data_output, main", RP+": Output, Homogenization declare_parameters, SimpleLoading"])

P("C76", "The trial microstress is the one that balances the microforces",
  "The trial microstress from which the rate-independent solver decides where slip is active is, at each slip degree of freedom, the one value of the scalar microstress with which that row of the residual vanishes while the slips keep their old values; slip is active exactly where no scalar microstress within the slip resistance balances the microforces.",
  "all meshes, elements whose shape functions sum to one, materials, displacements, old slips and constraints",
  "an equality over all states and meshes; a wrong decision is not visible in a single converged solution",
  [ASM+": assemble_local_trial_microstress_lumped_matrix, assemble_local_trial_microstress_right_hand_side", "source/gradient_crystal_plasticity/active_set.cc: compute_trial_microstress, determine_active_set"])

P("C77", "The assembly never writes outside the sparsity pattern",
  "Every entry of the Jacobian the assembly writes, for whatever active set and grain boundary conditions, is an entry of the sparsity pattern with which the matrix was set up; across a grain boundary that carries tractions the two grains couple in both directions.",
  "all meshes, materials, constraints, active sets and grain boundary conditions",
  "the active set changes the constraints in every iteration; a test sees few active sets",
  ["source/gradient_crystal_plasticity/setup.cc: make_sparsity_pattern", ASM+": assemble_local_jacobian, copy_local_to_global_jacobian", "source/gradient_crystal_plasticity/active_set.cc: determine_active_set"])
P("C78", "A Newton correction solves the linearised equations for all admissible variations",
  "The assembled residual vanishes exactly if the weak form vanishes for every variation that respects the Dirichlet, periodic and inactive-slip constraints; the correction obtained from the linear system respects these constraints and satisfies the linearised weak form for every such variation, in the monolithic system and in each block of the staggered ones.",
  "all meshes, local matrices and vectors, closed homogeneous constraints and active sets",
  "an equivalence over all variations, meshes and constraints",
  [ASM+": copy_local_to_global_jacobian, copy_local_to_global_residual", SOL+": solve_linearized_system, solve_decoupled_linearized_subsystem"])
P("C79", "The embracing algorithm corrects displacements as the coupled Newton method does",
  "The displacement correction from the reduced system of the embracing algorithm is the displacement part of a correction of the coupled Newton method.",
  "all meshes, local matrices and vectors and constraints",
  "an equality over all linear systems",
  [SOL+": solve_reduced_linearized_system"])

P("C67", "Microhard grain boundaries block slip and nothing else",
  "With microhard conditions, of the degrees of freedom of a grain boundary face exactly those of the slips are set to zero, and no displacement is.",
  "all dimensions, polynomial degrees, numbers of crystals and slips, both displacement settings",
  "universal over polynomial degrees and numbers of slips; tests run one pair of degrees",
  [SS+": setup_constraints", "include/gCP/fe_field.h: get_global_component"])

P("C80", "Dimensionless problems with grain boundary laws are refused or solved as the physical ones",
  "If a problem with cohesive laws, contact or microtractions at grain boundaries is accepted with the dimensionless form switched on, the forces and microforces the grain boundaries exert in the assembled residual are those of the same problem without the dimensionless form, divided by the units of the residual.",
  "all reference values, materials, grain boundary parameters, openings, slips, histories, elements and build types",
  "the scaling has to hold for every state of the interface; a test compares single load cases",
  ["source/gradient_crystal_plasticity/gradient_crystal_plasticity_solver.cc: GradientCrystalPlasticitySolver", "source/constitutive_laws.cc: CohesiveLaw, ContactLaw, MicrotractionLaw", "source/gradient_crystal_plasticity/assembly.cc: assemble_local_residual"])

P("C81", "The crystal data files are read completely and wrong ones are refused", "CrystalsData::init stores exactly the vectors listed in the orientation, slip direction and slip normal files, in the order of their lines, and throws if a file is missing, a line has the wrong number of columns, the number of orientations differs from the number of crystals of the triangulation or the numbers of directions and normals differ; after it every cell finds the orientation of its crystal.", "every content of the three files, every parser and format of numbers, every dimension, every list of material ids of the cells", "The contents of a text file form an infinite set of strings; tests read a handful of well formed files, in a debug build, with consecutive material ids.", ["source/crystal_data.cc: CrystalsData::read_and_store_data, CrystalsData::count_n_crystals", "include/gCP/crystal_data.h: CrystalsData::get_*"])

P("C82", "The traction boundary condition applies the traction of the loading programme", "A LoadControl object constructed from a monotonic loading programme returns at time t the traction t times max_load over the characteristic traction in its component.", "every loading programme, characteristic traction, time and component", "Real valued times and loads; the test would have to sample both.", ["source/boundary_conditions.cc: LoadControl::LoadControl, LoadControl::value"])

P("C83", "A time step does not create energy", "In every time step, from the converged state v to the new state u, the increase of the stored energy (elastic energy plus defect energy over all quadrature points, plus the energy of slip incompatibility at grain boundaries) plus the energy dissipated by slip is at most the work of the supply term and of the boundary loads plus the work of the forces acting on the degrees of freedom; the dissipation is never negative. If the condensed residual vanishes and the boundary values do not change, the forces on the degrees of freedom do no work.", "every mesh, number of cells, quadrature points, slip systems, degrees of freedom, constraint set, pair of states, rate-dependent and rate-independent law and latent hardening parameter >= 0", "An inequality between integrals over an arbitrary mesh for every pair of states; a run only samples one load history, with a residual that is not exactly zero.", ["source/gradient_crystal_plasticity/assembly.cc: assemble_local_residual, 637-1145", "source/constitutive_laws.cc: HookeLaw, VectorialMicrostressLaw, ScalarMicrostressLaw", "source/gradient_crystal_plasticity/quadrature_point_history.cc: update_values"])

P("C84", "A time step has at most one solution", "If two states satisfy the same boundary values and constraints and both make the condensed residual of the same time step vanish, they have the same elastic strain and stress at every quadrature point and, for rate-dependent behaviour, the same slips and strains; where the discretisation determines the fields, the states are equal.", "every mesh, number of cells, quadrature points, slip systems, constraint set, pair of states, rate-dependent and rate-independent law", "It compares the outcome with every other state that would satisfy the equations; the Newton iteration finds one of them.", ["source/gradient_crystal_plasticity/assembly.cc: assemble_local_residual, 637-1145", "source/constitutive_laws.cc: ScalarMicrostressLaw", "source/run_time_parameters.cc: HardeningLaw, 364-370"])

P("C85", "The homogenisation table reports what its titles say", "Every row of the homogenisation table holds, under the title of a tensor component, that component of the volume-averaged stress, of the macroscopic strain plus the averaged fluctuation, and of their fluctuations; no column is filled twice, no value lands in an undeclared column, and in two dimensions exactly the out-of-plane columns stay empty.", "all macroscopic strains, times, averaged fields, meshes, partitions into processes and both dimensions", "The titles and the tensor indices are written out one by one for each dimension; a table of a symmetric or uniaxial state cannot tell swapped shear components apart.", ["source/postprocessing.cc: Homogenization::init, update_table_handler_values, compute_macroscopic_quantities"])
P("C86", "The debug fields show the slip quantity of the crystal", "At every point of a crystal the debug output field of slip system a is the value of the nodal slip quantity a of that crystal, independent of the displacements and the other systems, and different systems have different names.", "all numbers of crystals and slips, with and without decohesion, all nodal values", "The component offset depends on the number of crystals and on the decohesion flag; a visual check of one run cannot cover the layouts or the sign.", ["source/postprocessing.cc: SlipBasedPostprocessor::get_names, evaluate_vector_field", "source/gradient_crystal_plasticity/setup.cc: debug_output"])

P("C87", "Updating the internal variables is memory safe and independent of the thread's earlier cells", "However the cells are distributed to threads and in whatever order a thread processes them, the update of the internal variables reads and writes only inside its thread-local buffers, and every cell ends with the history determined by its own slips alone.", "all numbers of slip systems, dimensions, cells, distributions to threads, orders and leftover buffer contents, debug and release builds", "The buffers are reused from cell to cell by a thread pool, and whether a buffer is too small depends on the relation of two counts that coincide or are ordered luckily in the shipped examples.", ["source/gradient_crystal_plasticity/assembly_data.cc: QuadraturePointHistory::Scratch", "source/gradient_crystal_plasticity/assembly.cc: update_local_quadrature_point_history"])

P("C88", "Interface variables do not depend on the distribution of the mesh", "Damage, largest opening and recorded opening of a grain-boundary face are the same whichever processes own its two cells and in whichever order a process visits them; both cells measure the same opening and energy.", "all displacements and slips, all sequences of prepare, evaluate, reset and record calls, all assignments of the two cells to processes and cell orders, 2D and 3D", "a test uses a few process counts and meshes; the property is about every partition and every history of evaluations", ["source/gradient_crystal_plasticity/assembly.cc: update_local_quadrature_point_history, prepare_quadrature_point_history, store_local_effective_opening_displacement", "source/gradient_crystal_plasticity/quadrature_point_history.cc: InterfaceQuadraturePointHistory"])

P("C89", "Rigid motions, balance of forces and moments", "Adding an infinitesimal rigid motion (translation and rotation) to the displacements changes no stress, no grain-boundary opening and no entry of the residual; the assembled residual, summed against a rigid motion, is the resultant (moment) of the supply term and of the loads on the boundary, whatever the slips and the tractions in the grain boundaries; at a solution the reactions at the prescribed degrees of freedom balance the applied forces and moments, up to the accepted residual.", "all polycrystals, all meshes with cells, opening grain boundaries, microtractions and loaded faces, all states and histories, all rigid motions, all sets of prescribed degrees of freedom", "a test evaluates a few states of a few meshes; a cancellation between the two sides of a grain boundary must hold for every opening and history", ["source/gradient_crystal_plasticity/assembly.cc: assemble_local_residual, copy_local_to_global_residual", "source/constitutive_laws.cc: HookeLaw, CohesiveLaw, ContactLaw"])

P("C90", "Solver statistics", "After every accepted step the statistics table of the solver (solution_algorithm_statistics.txt) has one more complete row: number of Newton iterations (solution loops for the bouncing, macro iterations for the embracing algorithm) and the mean orders of convergence of the iterations made; it and the tables of the shear test and of the line search can be written after any number of steps; keeping statistics does not influence the algorithms; the logged order tends to the order of convergence.", "all systems, histories of residual norms, algorithms, iteration limits, numbers of steps and restarts", "a test sees a few histories of norms; the property is about all of them, with restarts and any number of steps", ["source/gradient_crystal_plasticity/solve.cc: monolithic_algorithm, bouncing_algorithm, embracing_algorihtm", "source/gradient_crystal_plasticity/gradient_crystal_plasticity_solver.cc: output_data_to_file", "applications/simple_shear.cc: postprocessing", "source/line_search.cc: get_lambda, write_to_file", "source/postprocessing.cc: SimpleShear::compute_data"])

P("C91", "The parameter file gives the parameters", "A parameter file is refused by the parameter handler exactly if a line names no declared entry or gives a value of the wrong type or range; otherwise it is read without internal errors (undeclared entry, failing conversion, identifier not handled), is accepted exactly under the documented range conditions, and then every parameter has the value of the last line for its entry, or else the default of the entry. Debug and release builds that both accept it give the same parameters.", "every file, every environment, both problems, debug and release builds", "There are about 130 entries whose names, sections and types are written twice, in the declarations and in the parse functions, and any file may set any subset of them.", ["source/run_time_parameters.cc: declare_parameters, parse_parameters of all classes", "include/gCP/run_time_parameters.h"])
P("C92", "Template, defaults and copy of the parameter file", "The template written when no parameter file is found is itself an accepted file and gives the parameters of an empty file and of the default constructors; the copy of the parameter file in the output directory, read again, gives the same parameters as the original, for every file.", "every accepted file, every environment, both problems and builds", "The copy must be faithful for every file; the defaults are written down twice.", ["source/run_time_parameters.cc: constructors, 2079-2128, 2246-2293"])
P("C93", "Every entry of the parameter file has its effect", "Changing an entry of the parameter file changes the parameters the simulation uses; a file that asks for load control, a start time or a relative tolerance gets it, and no quantity depends on a parameter that is never set.", "every accepted file and every entry", "An entry without effect can only be found by comparing all runs; a test of the entry sees a run that succeeds.", ["source/run_time_parameters.cc: parse_parameters", "source/gradient_crystal_plasticity/solve.cc: 280-282, 394-396", "source/gradient_crystal_plasticity/assembly.cc: 1689-1697", "applications/simple_shear.cc"])
P("C94", "Meaningless parameters are refused", "Every accepted file describes a problem that makes sense: positive definite elasticity, positive regularisation parameters and tolerances, a load range and a time interval of positive length, at least one element, crystal and step, in every build.", "every accepted file, both builds", "The set of accepted files is infinite and the checks are spread over patterns, exceptions and debug assertions.", ["source/run_time_parameters.cc: declare_parameters, parse_parameters of all classes"])

P("C95", "The Newton log shows every iteration of the step", "The log of the nonlinear solver contains, for each load step, the residual every Newton loop starts from, then one row per iteration numbered from one with the Krylov and line-search iterations, the norms of the relaxed step and of the residual reached and the order of convergence; in a loop that converged the last row is the only one below the tolerance, the number of rows with a positive number is the number of linear systems solved, and the last row belongs to the accepted solution. Writing it does not change the result.", "every system, solution algorithm, active-set restart, limit and tolerance, accepted or given-up steps, and every earlier content of the logger", "The shape of the log depends on how many loops, restarts and iterations are made; a test shows one of them.", ["source/gradient_crystal_plasticity/solve.cc:monolithic_algorithm", "source/gradient_crystal_plasticity/solve.cc:bouncing_algorithm", "source/gradient_crystal_plasticity/solve.cc:embracing_algorihtm", "source/gradient_crystal_plasticity/solve.cc:update_and_output_nonlinear_solver_logger", "source/utilities.cc:Logger"])
P("C96", "Logging never ends a run", "A load step the release program accepts is accepted by the debug program too: writing the Newton log never ends the program.", "every system, residual history and solution algorithm", "It depends on residuals being exactly zero or one, which no sampled run shows.", ["source/utilities.cc:Logger::update_value", "source/gradient_crystal_plasticity/solve.cc:update_and_output_nonlinear_solver_logger"])

P("C97", "Elastic steps are solved at once, and a body in equilibrium stays in it", "While no slip is active, the equations of a load step are linear, and a step is accepted: after exactly one linear solve by the monolithic algorithm, after at most two corrections of displacements and slips by the embracing algorithm, and, for limits that are large enough, by the bouncing algorithm to every tolerance. In particular a step that starts in equilibrium is accepted.", "every mesh, material with positive elastic energy, set of constraints, start value, tolerance, limit and line-search setting", "It is about the behaviour of the nonlinear iteration on all linear systems, including residuals that are exactly zero, which test inputs avoid by rounding.", ["source/gradient_crystal_plasticity/solve.cc:monolithic_algorithm", "source/gradient_crystal_plasticity/solve.cc:bouncing_algorithm", "source/gradient_crystal_plasticity/solve.cc:embracing_algorihtm", "source/gradient_crystal_plasticity/solve.cc:line_search_algorithm", "source/line_search.cc:LineSearch", "include/gCP/line_search.h:LineSearch"])

P("C98", "A load step that cannot be completed is reported as an exception", "If a load step cannot be completed (iteration limits exhausted, linear solver without convergence, residual not a number, an evaluation of the constitutive laws that throws), the solver stops at once with an exception that the application can catch; it never returns a state that does not meet the tolerances, and never continues after a failure.", "every system, point of failure, tolerance and limit, and each of the solution algorithms", "It ranges over every point at which one of the operations can fail; unit tests do not inject failures into linear solvers and assembly.", ["source/gradient_crystal_plasticity/solve.cc:monolithic_algorithm", "source/gradient_crystal_plasticity/solve.cc:bouncing_algorithm", "source/gradient_crystal_plasticity/solve.cc:embracing_algorihtm", "source/gradient_crystal_plasticity/solve.cc:solve_linearized_system", "source/gradient_crystal_plasticity/solve.cc:solve_decoupled_linearized_subsystem", "source/gradient_crystal_plasticity/solve.cc:solve_reduced_linearized_system", "source/gradient_crystal_plasticity/assembly.cc:assemble_residual", "source/utilities.cc:handle_std_excepction"])

P("C99", "Fields are set up in order, and copies are independent", "A field accepts the calls that set it up in the documented order only and throws otherwise, leaving everything unchanged; after them it has one extractor and one element per crystal, blocks that divide its degrees of freedom, vectors with these blocks and, for every degree of freedom, the constraint given last; it reports to be initialised if and only if vectors and constraints are in place. Setting up again replaces what was there. Objects and copies do not influence each other.", "every history of constructions, copies and calls on any number of fields, any numbers of crystals and slips", "It ranges over all orders and interleavings of calls, including repeated ones; the tests set a field up once.", ["source/fe_field.cc:FEField", "source/fe_field.cc:setup_extractors", "source/fe_field.cc:setup_dofs", "source/fe_field.cc:set_affine_constraints", "source/fe_field.cc:set_newton_method_constraints", "source/fe_field.cc:setup_vectors", "source/fe_field.cc:reset_all_affine_constraints", "include/gCP/fe_field.h:is_initialized", "applications/simple_shear.cc:setup", "source/gradient_crystal_plasticity/setup.cc:init"])

P("C100", "Results do not depend on how slip systems are named", "A slip system may be described by either slip direction and either normal, the systems may be listed in any order and the degrees of freedom numbered in any way. Residuals, matrices, Newton updates, solutions of every time step, slip resistances, the active set, homogenised quantities and output of two runs that differ in such a description only are the same up to renumbering, with the sign of slip reversed for the systems whose sense is reversed; derived output columns are equal.", "every permutation of slip systems, every choice of reversed directions and normals, every renumbering of degrees of freedom, every mesh, state and number of time steps", "It is a relation between pairs of runs with different input files; tests run one input and cannot cover all permutations, signs and states.", ["source/crystal_data.cc:read_and_store_data", "source/gradient_crystal_plasticity/assembly.cc:assemble_local_residual", "source/gradient_crystal_plasticity/assembly.cc:assemble_local_jacobian", "source/gradient_crystal_plasticity/assembly.cc:assemble_local_trial_microstress_right_hand_side", "source/gradient_crystal_plasticity/active_set.cc:determine_active_set", "source/gradient_crystal_plasticity/quadrature_point_history.cc:update_values", "source/postprocessing.cc:evaluate_vector_field"])

P("C101", "Turning the specimen turns the results", "If mesh, crystals, loads, supply, prescribed displacements and macroscopic strain are turned (or mirrored) together, the turned displacements with the same slips solve every time step if and only if the original ones do; local contributions, Newton updates, residual norms, memory of quadrature points, averages and output columns are the turned ones, and slips, dislocation densities, equivalent strains and von Mises values are unchanged. Adding an angle to the crystal orientations turns the crystals by that angle.", "every orthogonal matrix, every mesh of grains, every state, constraint of whole vectors and number of time steps", "It relates pairs of runs over all rotations and states; a test compares one pair of runs up to solver tolerance.", ["source/crystal_data.cc:compute_rotation_matrices", "source/crystal_data.cc:compute_slip_systems", "source/constitutive_laws.cc:HookeLaw", "source/constitutive_laws.cc:VectorialMicrostressLaw", "source/constitutive_laws.cc:CohesiveLaw", "source/constitutive_laws.cc:ContactLaw", "source/constitutive_laws.cc:MicrotractionLaw", "source/gradient_crystal_plasticity/assembly.cc:assemble_local_residual", "source/gradient_crystal_plasticity/assembly.cc:assemble_local_jacobian", "source/postprocessing.cc:evaluate_vector_field", "source/postprocessing.cc:compute_macroscopic_stress"])

P("C102", "Use before initialisation is refused, and repeated initialisation is harmless",
  "Whatever calls were made before, the access functions of CrystalsData, HookeLaw and VectorialMicrostressLaw and the evaluations of the postprocessors throw until the init function of that object has completed, and never return values of a half-initialised object; laws that need the crystals cannot be initialised before them. Once initialised they answer what the input files and parameters say, and failed, repeated or retried calls of init of any object do not change or destroy the answers.",
  "all histories of constructions and init calls (with any meshes, missing, damaged or correct files) on one CrystalsData object, any number of laws pointing to it and any number of postprocessors; all access functions, crystals and slip systems; 2D and 3D",
  "the number of orders of calls with failures in between is unbounded, and a test that calls init once never sees the data appended by a failed or second call",
  ["source/crystal_data.cc: CrystalsData::init, count_n_crystals, read_and_store_data, compute_rotation_matrices, compute_3d_rotation_matrices, compute_slip_systems", "include/gCP/crystal_data.h: access functions", "source/constitutive_laws.cc: HookeLaw::init, HookeLaw::get_stress_tensor, VectorialMicrostressLaw::init, get_vectorial_microstress, get_jacobian", "include/gCP/constitutive_laws.h: HookeLaw::get_stiffness_tetrad", "source/postprocessing.cc: Postprocessor, SimpleShear, Homogenization (constructors, init, evaluation)"])

P("C103", "Reversing the load reverses the response",
  "If body force, tractions, prescribed boundary values, macroscopic strain and starting state are multiplied by -1, then the results of every time step are multiplied by -1: displacements, slips, stresses and strains change sign, slip resistances, active sets, dislocation densities and von Mises measures do not; the solver makes the same iterations, linear solves and line-search steps and ends the same way (convergence or exception).",
  "all materials, slip systems, meshes, loads, states and time step sequences; all regularisation functions, rate-dependent and rate-independent; all three algorithms with and without line search; grain boundaries without opening",
  "a preferred sign hidden in any law, constraint or criterion only shows for the states and load histories that reach it",
  ["source/constitutive_laws.cc: ScalarMicrostressLaw, VectorialMicrostressLaw, MicrotractionLaw, HookeLaw", "source/gradient_crystal_plasticity/quadrature_point_history.cc: QuadraturePointHistory::update_values", "source/gradient_crystal_plasticity/assembly.cc: assemble_local_residual, assemble_local_jacobian, assemble_local_trial_microstress_right_hand_side", "source/gradient_crystal_plasticity/solve.cc: monolithic_algorithm, bouncing_algorithm, embracing_algorihtm, line_search_algorithm, extrapolate_initial_trial_solution", "source/gradient_crystal_plasticity/active_set.cc: active_set_algorithm", "source/postprocessing.cc: evaluate_vector_field"])

P("C104", "Only the ratio of loading speed to regularisation matters",
  "Multiplying all durations of the load programme by a positive number, dividing the load rates and the regularisation parameter by it, changes no result: the run makes the same number of steps with the same boundary values and extrapolations, all systems handed to the solver are the same, and the same displacements and slips solve every step, also when grain boundaries open. Rate-independent material does not depend on the size of the time steps at all.",
  "all positive factors, materials, regularisation functions, slip systems, meshes, loads, histories and time step sequences; monotonic and cyclic programmes",
  "time enters the laws, their tangents, the branch of the cohesive law, the step sizes, the end of the loop and the boundary values separately; a place where it enters with a wrong power shows in no single test",
  ["source/constitutive_laws.cc: ScalarMicrostressLaw::get_scalar_microstress, get_jacobian, CohesiveLaw::get_cohesive_traction, get_jacobian", "source/gradient_crystal_plasticity/assembly.cc: assemble_local_residual, assemble_local_jacobian", "source/run_time_parameters.cc: SimpleLoading::parse_parameters, get_next_time_step_size, skip_extrapolation", "source/boundary_conditions.cc: DisplacementControl", "applications/simple_shear.cc: run"])

P("C105", "The number of time steps does not matter while slips move one way",
  "If several consecutive time steps move every slip in one direction, rate-independently or at a constant rate, then their result is also the result of the single step that replaces them: internal variables are the same, and the state that balances forces and microforces at the end of the last short step balances them in the long one; so a run may be coarsened anywhere it is monotone. The same holds where grain boundaries open steadily.",
  "all materials, hardening parameters, meshes, loads, histories, ways of grouping steps, positive step sizes, and trial evaluations in between",
  "a dependence on the number of steps (accumulation of increments, old values taken from the wrong step) appears only in comparisons of whole runs",
  ["source/gradient_crystal_plasticity/quadrature_point_history.cc: QuadraturePointHistory::update_values, InterfaceQuadraturePointHistory::update_values", "source/constitutive_laws.cc: ScalarMicrostressLaw::get_scalar_microstress, CohesiveLaw::get_cohesive_traction", "source/gradient_crystal_plasticity/solve.cc: solve_nonlinear_system", "source/gradient_crystal_plasticity/assembly.cc: assemble_local_residual"])

P("C106", "Two-dimensional computations are plane-strain cross-sections of three-dimensional ones",
  "The two-dimensional program computes the plane-strain problem of the three-dimensional one: given the same input (orientation angle as first Euler angle, in-plane slip systems and loads), displacements and slips of the plane, repeated at all heights without out-of-plane displacement, solve every time step of the three-dimensional body with out-of-plane displacement held if and only if they solve the two-dimensional problem, with the same resistances, damage records, stresses and output fields; averages agree in the plane.",
  "all materials with cubic elasticity, in-plane slip systems, orientations, meshes, layers, loads, constraints, grain boundary laws, step sizes and runs of any length",
  "two template instantiations are never compared by a test; a difference in one of the dim==2 branches (rotation, third vector, lateral directions, stiffness, output) is wrong only against the other dimension",
  ["source/crystal_data.cc: CrystalsData::read_and_store_data, compute_rotation_matrices, compute_3d_rotation_matrices, compute_slip_systems", "source/constitutive_laws.cc: HookeLaw::init, VectorialMicrostressLaw::get_vectorial_microstress, MicrotractionLaw::get_grain_interaction_moduli, CohesiveLaw, ContactLaw", "source/gradient_crystal_plasticity/assembly.cc: assemble_local_residual", "source/postprocessing.cc: Postprocessor::evaluate_vector_field, convert_2d_to_3d, Homogenization::compute_macroscopic_stress"])

P("C107", "Orientations that differ by a symmetry of the lattice are the same orientation",
  "Turning any grain of a polycrystal by a rotation of its cubic lattice that maps its slip systems to each other (a quarter turn added to the angle, any of the 24 rotations of the cube for the twelve systems of face-centred and body-centred crystals) leaves displacements, strains, elastic strains and stresses of every time step unchanged; slips of the grain change their numbers and signs with the slip systems, also where it meets differently oriented grains.",
  "all cubic stiffnesses, slip systems, orientations, symmetries (one per grain), meshes, grain boundary laws, constraints, loads, step sizes and runs of any length",
  "an orientation is an arbitrary real angle and the symmetric one produces different matrices, slip systems and unknowns throughout the assembly; no finite set of orientations shows that the results coincide",
  ["source/crystal_data.cc: CrystalsData::compute_rotation_matrices, compute_slip_systems, read_and_store_data", "source/constitutive_laws.cc: HookeLaw::init, VectorialMicrostressLaw::get_vectorial_microstress, MicrotractionLaw::get_grain_interaction_moduli", "source/gradient_crystal_plasticity/assembly.cc: assemble_local_residual"])

P("C108", "Rounding errors never make the range check of the grain interaction moduli throw",
  "When the slip systems and orientations were accepted, computing the grain interaction moduli at a grain boundary in double precision raises no exception: rounding of the normalised and rotated vectors never lifts a modulus above the bound of the check.",
  "all roundings to nearest (any rule for ties), all slip systems of ordinary size that the reader accepts, all orientations of the two crystals, all boundary normals, all pairs of slip systems",
  "the check compares a product of rounded numbers with one; whether it throws depends on the last bits of the input and only special directions show it",
  ["source/constitutive_laws.cc: MicrotractionLaw::get_grain_interaction_moduli", "source/crystal_data.cc: CrystalsData::read_and_store_data, orthogonality_check, compute_rotation_matrices, compute_slip_systems"])

P("C109", "Rounding of the times does not change the load programme",
  "In double precision the time loop makes exactly the prescribed number of steps, its last time is exactly the computed end time, times increase strictly and differ from the prescribed ones by at most 2^-50 of the end time per step made, and the extrapolation is skipped at exactly the prescribed steps.",
  "all roundings to nearest, all durations, step counts, periods and numbers of cycles whose steps are resolved by double precision; every step of the run",
  "times are accumulated by addition; whether a rounding error adds or loses a step, or makes a comparison of fractions with a quarter fail, depends on the particular durations and counts",
  ["source/run_time_parameters.cc: SimpleLoading::parse_parameters, get_next_time_step_size, skip_extrapolation", "applications/simple_shear.cc: SimpleShearProblem::run"])

P("C110", "The assembled system does not depend on threads, order of cells and old buffers",
  "Residual and Jacobian of the parallel assembly are the sums of the local contributions of the cells, each counted once, whichever thread, scratch and copy object deal.II gives to a cell, in whatever order the results are added, and whatever a reused buffer contained before; two runs give the same entries with NaN at the same places, and the consistency checks of the copier never throw.",
  "all meshes, cells with any number of grain boundary and loaded faces, all schedules of workers and copiers on any number of threads, all previous contents of the copy objects and all scratches left by earlier cells",
  "a buffer that is not reset shows only if a particular thread gets a particular sequence of cells, for example one with a grain boundary face before one without; tests run few schedules and often a single thread",
  ["source/gradient_crystal_plasticity/assembly.cc: assemble_local_residual, assemble_local_jacobian, copy_local_to_global_residual, copy_local_to_global_jacobian", "source/gradient_crystal_plasticity/assembly_data.cc: Residual::Scratch, Jacobian::Scratch, Residual::Copy, Jacobian::Copy"])

P("C111", "History variables in double precision",
  "In double precision a slip resistance never falls below its initial value and never decreases from one accepted time step to the next; after k steps with n slips it is within (7+2kn)/2^53, relatively, of the exact hardening law (10^-130 absolutely); trial evaluations leave no trace, to the last bit. The largest opening of an interface is recorded exactly, its damage is within 2^-50 of the exact exponential law, never above one and lowered by at most 2^-49 in a step; M1 damage never decreases and never exceeds one while the force is not below the endurance limit.",
  "all parameters of moderate size, all numbers of slips and time steps (k n up to 2^50), all slips and openings, all trial evaluations in between, every rounding to nearest and every exponential function within one unit in the last place",
  "rounding errors depend on every bit of every input and accumulate over a run; a test compares one run with a tolerance someone chose",
  ["source/gradient_crystal_plasticity/quadrature_point_history.cc: QuadraturePointHistory::init, QuadraturePointHistory::update_values, InterfaceQuadraturePointHistory::update_values", "include/gCP/quadrature_point_history.h: get_hardening_matrix_entry", "source/gradient_crystal_plasticity/setup.cc: reset_and_update_slip_resistances"])

P("C112", "Slip systems are accurate in double precision",
  "For integer Miller indices the slip system file is rejected exactly if direction and normal are not orthogonal, NaN arises exactly if one of them is zero, and otherwise the rotated unit vectors of the crystal are within 2^-42 (2^-46 in the plane) of the exact ones and its Schmid tensors within 2^-41 (2^-45); orthogonal decimal indices can be rejected.",
  "all integer indices up to 2^25, all Euler angles within 360 degrees, every rounding to nearest and all cosine and sine functions within one unit in the last place",
  "rounding errors depend on every bit of the angles and indices; a test looks at a few crystals with a tolerance someone chose",
  ["source/crystal_data.cc: CrystalsData::read_and_store_data, CrystalsData::compute_slip_systems, CrystalsData::orthogonality_check, CrystalsData::compute_rotation_matrices"])

P("C113", "A homogeneous body responds like a material point",
  "In a body of one crystal with the same resistances everywhere and no supply, the uniform strains and slips of the material point solve the discrete equations of every step; every rate-dependent run with their boundary values has them, with the stress and the resistances of the point, at every quadrature point; and the homogenised stress and strain, on any number of processes, and the reported boundary stress in the plane are those of the point.",
  "all meshes, shape functions, crystals, hardening parameters, loading histories, step sizes, numbers of steps, and distributions of cells on processes",
  "patch tests cover a few meshes and one step; agreement must hold for every mesh and after any history of hardening",
  ["source/gradient_crystal_plasticity/assembly.cc: GradientCrystalPlasticitySolver::assemble_local_residual", "source/gradient_crystal_plasticity/solve.cc: GradientCrystalPlasticitySolver::monolithic_algorithm", "source/postprocessing.cc: Homogenization::compute_macroscopic_quantities, SimpleShear::compute_stress_12_at_boundary"])

P("C114", "The number of threads does not change a bit of the assembled vectors and matrices",
  "Whatever the number of threads, the way cells are handed to them and the old contents of the reused working storage, the residual, the Jacobian, the trial microstress system and the damage projection assembled in floating point are, to the bit, those of a loop that visits the cells one after the other with fresh storage; for exact arithmetic they are the sums over cells of the cell integrals.",
  "all meshes, fields, schedules of the workers, copy and scratch objects with arbitrary old contents, and all arithmetics, associative or not",
  "a test runs a few schedules on one machine; a stale entry in a reused buffer shows only when a particular cell follows another on the same thread",
  ["source/gradient_crystal_plasticity/assembly.cc: assemble_local_residual, assemble_local_jacobian, assemble_local_trial_microstress_right_hand_side, assemble_local_trial_microstress_lumped_matrix, assemble_local_projection_matrix, assemble_local_projection_rhs", "source/gradient_crystal_plasticity/assembly_data.cc: Scratch and Copy structures"])

P("C115", "The tolerance of the Newton method bounds the error of the state",
  "For stable materials the errors of two states of a step in elastic strain, slip gradient and slip are never negative and together at most the distance of their residuals times the distance of the states: a state returned as converged differs from every solution by an energy of at most the tolerance times the distance, and by at most the tolerance over the stiffness where the mesh determines the unknowns; and two supplies give solutions that differ by the energy the difference of the supplies does work.",
  "all meshes, crystals, hardening parameters within the bound of C84, old states, trial states, tolerances, linear solvers and line searches",
  "a test compares two solutions on one mesh; that a small residual means a small error must hold at every step of every run",
  ["source/gradient_crystal_plasticity/solve.cc: GradientCrystalPlasticitySolver::monolithic_algorithm", "source/gradient_crystal_plasticity/assembly.cc: GradientCrystalPlasticitySolver::assemble_local_residual", "source/fe_field.cc: FEField::get_l2_norm"])

P("C116", "Near a solution the Newton loop converges quadratically",
  "If around the start value the Jacobian is the derivative of the residual, changes at most at the rate L and its inverse is at most M, and q = L M^2 r/2 < 1 for the start residual r, then the step has a solution within M r/(1-q) of the start value, the monolithic Newton loop takes full steps whether or not the line search is on, the residual after i iterations is at most r q^(2^i - 1), the loop returns as converged after at most k linear solves for every tolerance above r q^(2^k - 1), and each step squares the distance from the solution up to the factor M L/2.",
  "all problems, constraints, start values, radii, constants, tolerances, iteration limits and line search parameters within the bound",
  "a test shows a convergence history of one load step; the rate must hold for every problem, tolerance and number of iterations",
  ["source/gradient_crystal_plasticity/solve.cc: GradientCrystalPlasticitySolver::monolithic_algorithm", "source/gradient_crystal_plasticity/solve.cc: GradientCrystalPlasticitySolver::update_trial_solution", "include/gCP/line_search.h: LineSearch"])

P("C117", "With hardening the Newton loop still converges, linearly",
  "For a rate-dependent body with quadratic defect energy whose stored energy determines the unknowns with stiffness k, let d = 2 H n m, with H the hardening modulus, n the number of slip systems and m the bound of the slips by the unknowns. If d < k, the linear system of every trial solution has a solution; and in every region there is a size of the residual below which the monolithic loop takes full steps, gains at least any factor q between d/(k-d) and 1 in every iteration, and returns as converged after at most j linear solves for every tolerance above r q^j. In general: if the matrix predicts the change of the residual up to the fraction d of the step and a quadratic error, the step has a solution near the start value and the residual after i iterations is at most r q^i.",
  "all rate-dependent bodies, slip systems, regularisations, hardening within the bound, regions, start values, tolerances, iteration limits and line search parameters",
  "the inexact tangent shows up as a slower rate only near the solution; a test sees that the loop ends, not that it ends for every body and tolerance",
  ["source/gradient_crystal_plasticity/solve.cc: GradientCrystalPlasticitySolver::monolithic_algorithm", "source/constitutive_laws.cc: ScalarMicrostressLaw::get_jacobian", "source/gradient_crystal_plasticity/assembly.cc: GradientCrystalPlasticitySolver::assemble_local_jacobian"])

P("C118", "Every time step of a stable rate-dependent body has exactly one solution, and the tolerance controls the distance to it",
  "For a rate-dependent body with stable elasticity, defect energy of any index from 2 and hardening within the bound of C84, whose mesh, stored energy and boundary conditions leave no admissible variation without energy, the equations the code assembles in a time step have a solution that fulfils the boundary conditions, and all such solutions have the same nodal values. For every distance there is a Newton tolerance such that every trial solution whose residual is within the tolerance - in particular whatever the monolithic algorithm returns, with or without line search, from any start value and after any number of iterations - lies within that distance of the solution.",
  "all meshes, slip systems, defect energy indices from 2, regularisations, hardening within the bound, loads, histories, time steps, boundary values, start values and distances",
  "existence and uniqueness are statements about all states; a run only shows one state with a small residual, which could belong to no solution or to one of several",
  ["source/gradient_crystal_plasticity/assembly.cc: GradientCrystalPlasticitySolver::assemble_local_residual", "source/gradient_crystal_plasticity/solve.cc: GradientCrystalPlasticitySolver::monolithic_algorithm", "source/constitutive_laws.cc: VectorialMicrostressLaw::get_vectorial_microstress", "source/constitutive_laws.cc: ScalarMicrostressLaw::get_scalar_microstress"])

P("C119", "A run is determined by its input, and the Newton tolerance controls the error of the whole run",
  "For a rate-dependent body that meets the conditions of C118 with its initial slip resistances, every start state, sequence of time steps, loads and boundary values has a run - a sequence of states in which every step solves its equations with the slips and slip resistances the preceding states left behind - and two runs that start with the same nodal values have the same nodal values at all times. For every number of steps and every distance there is a tolerance such that any sequence of states whose residuals, each computed with the history of these states themselves, stay within the tolerance, and which starts within it, lies within that distance of the run at every step: errors of the Newton method do not build up beyond every bound as the history is carried along.",
  "all bodies, meshes, start states, numbers and sizes of steps, loads, boundary values, hardening within the bound, distances and computed sequences",
  "a test compares single runs with a fixed tolerance; that the limit of the tolerance exists and is the same for every path of the Newton method concerns all possible runs",
  ["source/gradient_crystal_plasticity/solve.cc: GradientCrystalPlasticitySolver::monolithic_algorithm", "source/gradient_crystal_plasticity/assembly.cc: GradientCrystalPlasticitySolver::reset_and_update_internal_variables", "source/gradient_crystal_plasticity/quadrature_point_history.cc: QuadraturePointHistory::update_values"])

P("C120", "All three solution algorithms find the same solution",
  "For a rate-dependent body that meets the conditions of C118, whatever the bouncing or the embracing algorithm returns has an error, in elastic energy, slip gradients and slips, of at most the Euclidean sum of the macro and micro tolerances times the distance from the solution. The step has exactly one solution, and for every distance there is a tolerance such that with tolerances below it whatever the monolithic, the bouncing or the embracing algorithm returns lies within that distance of it: the choice of the algorithm does not influence the result.",
  "all bodies, meshes, loads, boundary values, hardening within the bound, start values, line search settings, limits of iterations and loops, linear solvers, tolerances and distances",
  "a test compares the algorithms on one problem with one tolerance; that they cannot settle on different states concerns all of them",
  ["source/gradient_crystal_plasticity/solve.cc: GradientCrystalPlasticitySolver::bouncing_algorithm", "source/gradient_crystal_plasticity/solve.cc: GradientCrystalPlasticitySolver::embracing_algorihtm", "source/gradient_crystal_plasticity/solve.cc: GradientCrystalPlasticitySolver::monolithic_algorithm"])

P("C121", "A step of a polycrystal with microtractions has exactly one solution, and all algorithms find it",
  "For a rate-dependent polycrystal with grain boundaries that do not open, with or without microtractions, with loaded boundaries, stable grains (C84) and boundary conditions that determine the unknowns, every time step has a solution that fulfils the boundary conditions, whatever the loads, histories and boundary values are, and only one. Between any two states of the step the errors in elastic strains, slip gradients, slips and net Burgers tensors at the grain boundaries are together at most the distance of the residuals times the distance of the states. With sufficiently small tolerances, whatever the monolithic, bouncing or embracing algorithm returns lies as close to the solution as one wishes.",
  "all meshes, orientations, grain boundary parameters, loads, histories, boundary values, hardening within the bound, start values, matrices, linear solvers, line search settings and limits of iterations",
  "a test solves one polycrystal; that a solution exists and the algorithms cannot settle elsewhere concerns all polycrystals and states",
  ["source/gradient_crystal_plasticity/assembly.cc: GradientCrystalPlasticitySolver::assemble_local_residual", "source/gradient_crystal_plasticity/solve.cc: GradientCrystalPlasticitySolver::monolithic_algorithm", "source/constitutive_laws.cc: MicrotractionLaw::get_microtraction"])

P("C122", "Both cells of a grain boundary face compute the same opening, bit by bit, so the shared record does not depend on who writes it",
  "In double precision the two cells of a face measure the same effective opening and record the same effective opening although their normals and openings have opposite signs. Hence the record of a quadrature point (damage, maximum, recorded opening) after any sequence of calls does not depend on which of the cells visited it, how often and in which order, and after an evaluation neither cell sees an opening above the maximum; a cell finds its opening equal to the maximum exactly when it reaches the maximum stored before the step, so that the comparison of doubles by == in the cohesive law decides as intended.",
  "all displacements, normals, stiffness ratios, damage parameters, sequences of calls, owners of the cells and orders of the workers; space dimensions; roundings to nearest that treat both signs alike",
  "an equality of bits that two differently signed computations must share, for every schedule of the workers, cannot be sampled",
  ["source/gradient_crystal_plasticity/assembly.cc: GradientCrystalPlasticitySolver::update_local_quadrature_point_history, store_local_effective_opening_displacement", "source/constitutive_laws.cc: CohesiveLaw::get_effective_opening_displacement", "source/gradient_crystal_plasticity/quadrature_point_history.cc: InterfaceQuadraturePointHistory::store_effective_opening_displacement"])
P("C123", "An opening held constant at its maximum counts as loading and does not damage the boundary",
  "If the displacements at a grain boundary are the same at the end of two steps and the opening is at its maximum, the cohesive law takes the loading branch in the second step, because the rate of the opening is zero, and the damage does not grow. This needs the measured opening to be the recorded one.",
  "all displacements, normals, stiffness ratios and time steps, in double precision",
  "the comparison of a computed rate with zero fails for some normals and displacements only, by one unit in the last place",
  ["source/constitutive_laws.cc: CohesiveLaw::get_cohesive_traction, CohesiveLaw::get_jacobian, CohesiveLaw::get_effective_opening_displacement", "source/gradient_crystal_plasticity/quadrature_point_history.cc: InterfaceQuadraturePointHistory::store_effective_opening_displacement"])

P("C124", "Results do not depend on how cells and degrees of freedom are numbered and distributed over processes",
  "If the same body is given with its degrees of freedom numbered differently and its cells in another order on other processes, then the Jacobian, the residual, its norm and the Newton update are the same up to the numbering, every run of the one is a run of the other, and for every number of steps and every distance there is a tolerance with which any two computed runs stay within that distance of each other at every degree of freedom. The same holds for polycrystals with microtractions.",
  "all bodies, constraints with hanging nodes and periodicity, renumberings, orders of cells, numbers of processes, loads, boundary values, time steps, numbers of steps and states",
  "a test compares two numbers of processes on one mesh; the claim concerns all partitions and numberings",
  ["source/gradient_crystal_plasticity/assembly.cc: GradientCrystalPlasticitySolver::copy_local_to_global_jacobian", "source/gradient_crystal_plasticity/assembly.cc: GradientCrystalPlasticitySolver::copy_local_to_global_residual", "source/fe_field.cc: FEField::setup_dofs"])
P("C125", "A run of a polycrystal is determined by its input, and the tolerance controls its error",
  "For a rate-dependent polycrystal with stable grains, grain boundaries that do not open, with or without microtractions, and boundary conditions that determine the unknowns, every start state, sequence of loads, boundary values and time steps has exactly one sequence of states that solves all steps, each with the history of the preceding ones; and for every number of steps and every distance there is a tolerance such that all states computed within it, from a start within it, lie within that distance of the run.",
  "all polycrystals, orientations, grain boundary parameters, loads, boundary values, time steps, start states, numbers of steps, and computed states",
  "a test runs one polycrystal with one tolerance; existence, uniqueness and the effect of the tolerance over any number of steps concern all of them",
  ["source/gradient_crystal_plasticity/solve.cc: GradientCrystalPlasticitySolver::solve_nonlinear_system", "source/gradient_crystal_plasticity/assembly.cc: GradientCrystalPlasticitySolver::assemble_local_residual", "source/gradient_crystal_plasticity/quadrature_point_history.cc"])

P("C126", "A grain boundary reports the opening and the traction of the equations",
  "After every time step the effective opening, its normal and tangential part and the effective cohesive traction kept at each quadrature point of a grain boundary are those the equations of the accepted state contain, degraded by the damage of the equations, whichever of the two cells wrote last.",
  "all displacements, normals, histories, damage values, cohesive parameters, coupling flags, orders of visits and contents of uninitialised memory",
  "the content of uninitialised memory and the history of a face cannot be enumerated by tests",
  ["source/gradient_crystal_plasticity/assembly.cc: GradientCrystalPlasticitySolver::store_local_effective_opening_displacement", "source/gradient_crystal_plasticity/quadrature_point_history.cc: InterfaceQuadraturePointHistory::store_effective_opening_displacement", "source/run_time_parameters.cc: DamageEvolution::DamageEvolution"])

P("C127", "A run depends continuously on loads, boundary values and start",
  "Small changes of the supply, the tractions on loaded faces, the prescribed boundary values and the initial state, together with a small tolerance of the nonlinear solver, change the computed displacements, slips, stresses and slip resistances of all steps of a run only a little: for every number of steps and every distance there is a tolerance that guarantees this distance.",
  "all stable rate-dependent polycrystals, meshes, constraints, time step sizes, load histories, numbers of steps and distances, and all computed states",
  "the statement compares a run with all runs of nearby data; a test can only compare two",
  ["source/gradient_crystal_plasticity/solve.cc: GradientCrystalPlasticitySolver::solve_nonlinear_system", "source/gradient_crystal_plasticity/assembly.cc: GradientCrystalPlasticitySolver::assemble_local_residual", "source/gradient_crystal_plasticity/quadrature_point_history.cc: QuadraturePointHistory::update_values"])

P("C128", "The opening of a grain boundary is accurate to a few roundings, and so is the choice between loading and unloading",
  "In double precision the opening either cell of a face measures, and the opening it records for a boundary that is not closing, agree with the definition (normal opening counted only if positive, sliding weighted with the stiffness ratio) up to 200 roundings of the size of the displacement jump, however close to zero the opening is. Hence a boundary whose opening has grown since the last step by more than this counts as loading exactly if the measured opening reaches the largest one so far, and a boundary that has closed by more than this counts as unloading.",
  "all displacements, unit normals, stiffness ratios, histories of calls, time steps; both cells, two and three dimensions, all roundings to nearest",
  "a bound on rounding errors for all arguments, including cancellation and underflow, cannot be sampled",
  ["source/constitutive_laws.cc: CohesiveLaw::get_effective_opening_displacement, CohesiveLaw::get_cohesive_traction", "source/gradient_crystal_plasticity/quadrature_point_history.cc: InterfaceQuadraturePointHistory::store_effective_opening_displacement", "source/gradient_crystal_plasticity/assembly.cc: GradientCrystalPlasticitySolver::store_local_effective_opening_displacement"])

P("C129", "Every time step has a solution, also with grain boundaries that open and for any hardening",
  "Whatever has happened before, the equations of a time step of a rate-dependent polycrystal, with decohesion, damage, contact penalties and microtractions at its grain boundaries and for all nonnegative hardening and latent hardening parameters, have a solution that fulfils the boundary values, so that a failure of the nonlinear solver is never due to equations without solution. Steps can therefore be continued to a whole run, for all loads and time steps; the only exception is a boundary whose recorded opening is positive although it has never been loaded, for which the traction is 0/0.",
  "all meshes, crystals, orientations, materials, faces, histories, rejected trials, loads, boundary values, time steps and step sizes",
  "existence of a solution for all data is a statement about all meshes, histories and loads; a run only shows that one solver found or did not find one",
  ["source/gradient_crystal_plasticity/assembly.cc: GradientCrystalPlasticitySolver::assemble_local_residual", "source/constitutive_laws.cc: CohesiveLaw::get_cohesive_traction, ContactLaw::get_contact_traction, MicrotractionLaw, HardeningLaw, MicrostressLaw", "source/gradient_crystal_plasticity/quadrature_point_history.cc: QuadraturePointHistory, InterfaceQuadraturePointHistory", "source/gradient_crystal_plasticity/solve.cc: GradientCrystalPlasticitySolver::solve_nonlinear_system"])

P("C130", "In an accepted rate-independent step no slip system is stressed beyond its slip resistance",
  "When a rate-independent step has been accepted, every slip degree of freedom, active or not, is in microforce balance with a scalar microstress that does not exceed its slip resistance in absolute value; so no crystal carries more stress than its yield condition allows.",
  "all meshes, crystals, slip systems, orientations, materials, hardening parameters, old slips and accepted states",
  "whether some inactive system is overstressed depends on all states the solver may accept; tests look at one or two systems with single slip",
  ["source/gradient_crystal_plasticity/active_set.cc: GradientCrystalPlasticitySolver::determine_active_set", "source/gradient_crystal_plasticity/assembly.cc: GradientCrystalPlasticitySolver::assemble_local_trial_microstress_right_hand_side, GradientCrystalPlasticitySolver::assemble_local_residual", "source/gradient_crystal_plasticity/solve.cc: GradientCrystalPlasticitySolver::monolithic_algorithm"])

P("C131", "Every rate-independent step has a state the solver can accept",
  "For the rate-independent law, whatever the loads, boundary values, hardening and history, there is a state that fulfils the equations of the step, so the solver is not set a task without a solution.",
  "all meshes, crystals, slip systems, materials, hardening parameters, histories, loads and boundary values",
  "a test sees a solver that diverges, not that no state exists; that one exists always is a statement about a nonlinear system of any size",
  ["source/constitutive_laws.cc: ScalarMicrostressLaw::get_scalar_microstress", "source/gradient_crystal_plasticity/active_set.cc: GradientCrystalPlasticitySolver::determine_active_set", "source/gradient_crystal_plasticity/assembly.cc: GradientCrystalPlasticitySolver::assemble_local_residual", "source/gradient_crystal_plasticity/solve.cc: GradientCrystalPlasticitySolver::monolithic_algorithm"])

P("C132", "The rate-dependent law approximates rate-independent behaviour, with an error proportional to the regularisation parameter",
  "As the regularisation parameter of the rate-dependent law tends to zero, the computed elastic strains tend to those of rate-independent plasticity: their distance, measured in elastic and defect energy, is at most the parameter times the work the slip resistances would do at unit slip rate. Two rate-independent solutions of a step have the same stresses.",
  "all meshes, crystals, materials with hardening not latent beyond self hardening, histories, loads, boundary values and regularisation parameters",
  "a limit statement over all parameters and all solutions; tests compare a few parameters on one mesh",
  ["source/constitutive_laws.cc: ScalarMicrostressLaw::get_scalar_microstress, ScalarMicrostressLaw::get_regularization_function_value", "source/gradient_crystal_plasticity/quadrature_point_history.cc: QuadraturePointHistory::update_values", "source/gradient_crystal_plasticity/assembly.cc: GradientCrystalPlasticitySolver::assemble_local_residual"])

P("C133", "The homogenised stress does the work of the stresses; the homogenised elastic stiffness is symmetric and within the bounds of Voigt and Reuss",
  "For a computed state of a specimen under a macroscopic strain, the reported volume times the work of the reported macroscopic stress on any macroscopic strain equals the work of the stresses on that strain plus any admissible fluctuation. In elastic states the reported stresses of two macroscopic strains do the same work on each other's strain, and the reported work on the applied strain is not negative, at most that of a uniform strain and at least that of a uniform stress.",
  "all meshes, numbers of processes and distributions of the cells, orientations, elastic parameters and macroscopic strains",
  "holds for every polycrystal and every discretisation; a test compares one specimen with one number",
  ["source/postprocessing.cc: Homogenization::compute_macroscopic_stress", "source/gradient_crystal_plasticity/assembly.cc: GradientCrystalPlasticitySolver::assemble_local_residual", "source/constitutive_laws.cc: HookeLaw::get_stress_tensor, ElasticStrain::get_elastic_strain_tensor"])

P("C134", "Elastic specimens: least energy, softer with weaker boundary conditions and finer meshes, superposition",
  "Among all fluctuations the boundary conditions admit, the computed elastic state has the least energy, and this energy is what is reported as work. So the reported stiffness does not increase if boundary conditions are relaxed (prescribed displacements, then periodic, then fewer constraints) or if the mesh is refined, and reported stresses superpose linearly and do not depend on which state was found or on the distribution of the cells.",
  "all specimens, meshes, sets of constraints, distributions over processes and macroscopic strains",
  "a comparison of all pairs of meshes and constraints and of all admissible fluctuations",
  ["source/postprocessing.cc: Homogenization::compute_macroscopic_stress", "source/gradient_crystal_plasticity/assembly.cc: GradientCrystalPlasticitySolver::assemble_local_residual", "source/constitutive_laws.cc: HookeLaw::get_stress_tensor"])

P("C135", "The reported work of a strain-driven run covers stored energy and dissipation; no programme of strains gains work",
  "In a run driven by a changing macroscopic strain, with any slips, steps and histories, the energy stored and dissipated never exceeds the energy at the start plus volume times the work of the reported macroscopic stresses on the changes of the macroscopic strain; dissipation is never negative. From a state at rest no programme of strains, closed or not, gains work, as read off the homogenisation results.",
  "all specimens, programmes of macroscopic strains, step sizes, numbers of steps, distributions over processes, rate-dependent and rate-independent behaviour",
  "quantifies over all programmes and all runs, an energy inequality for every history",
  ["source/postprocessing.cc: Homogenization::compute_macroscopic_stress", "source/gradient_crystal_plasticity/setup.cc: GradientCrystalPlasticitySolver::set_macroscopic_strain", "source/gradient_crystal_plasticity/assembly.cc: GradientCrystalPlasticitySolver::assemble_local_residual"])

P("C136", "Polycrystals with opening grain boundaries are passive under strain-driven loading, as read off the homogenisation results",
  "In a run of a polycrystal driven by a changing macroscopic strain, while grain boundaries open, close, touch, slide and are damaged and microtractions act on them, the energy stored in grains and grain boundaries and dissipated in the grains never exceeds the energy at the start plus the work of the loads and volume times the work of the reported macroscopic stresses on the changes of the macroscopic strain. From rest, without loads, no programme of strains, closed or not, gains work; and every programme has a run.",
  "all specimens with grain boundaries, damage parameters, programmes of macroscopic strains, step sizes, numbers of steps, trial evaluations, distributions over processes, rate-dependent and rate-independent behaviour",
  "quantifies over all programmes and all runs with all histories of opening and damage, an energy inequality for every history",
  ["source/postprocessing.cc: Homogenization::compute_macroscopic_stress", "source/gradient_crystal_plasticity/setup.cc: GradientCrystalPlasticitySolver::set_macroscopic_strain", "source/gradient_crystal_plasticity/assembly.cc: GradientCrystalPlasticitySolver::assemble_local_residual", "source/gradient_crystal_plasticity/quadrature_point_history.cc: InterfaceQuadraturePointHistory::update_values"])

P("C137", "The reported stress of a step is a monotone and Lipschitz continuous function of the macroscopic strain",
  "In a time step of a specimen, with the same histories, step size and boundary conditions, two macroscopic strains E and E' give reported macroscopic stresses S and S' with 0 <= (E-E'):(S-S'), not more than the elastic (Voigt) energy of E-E', and for every F the square of F:(S-S') is at most the product of the Voigt energies of F and E-E'. Small errors in the prescribed strain cause small errors in the reported stress, and the apparent tangent stiffness is never negative nor above the elastic bound, whatever grains slip, and even where the slips are not unique.",
  "all specimens, polycrystals with microtractions, histories, pairs of strains and directions F, loads, distributions over processes, rate-dependent and rate-independent behaviour",
  "a comparison of the nonlinear solutions under all pairs of macroscopic strains and all histories",
  ["source/postprocessing.cc: Homogenization::compute_macroscopic_stress", "source/gradient_crystal_plasticity/setup.cc: GradientCrystalPlasticitySolver::set_macroscopic_strain", "source/gradient_crystal_plasticity/assembly.cc: GradientCrystalPlasticitySolver::assemble_local_residual"])

out = os.path.join(os.path.dirname(os.path.abspath(__file__)), "..", "properties.jsonl")
with open(out, "w") as f:
    for r in rows:
        f.write(json.dumps(r) + "\n")
print(len(rows))
