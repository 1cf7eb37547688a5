{
 "claims": [
  {
   "property": "C01",
   "status": "proved",
   "theorems": [
    "Verif.LS.C01_first_step",
    "Verif.LS.C01_later_step",
    "Verif.LS.C01_compound"
   ],
   "note": "All objective sequences, any number of interpolations; a non-number result is a separate outcome (C03)."
  },
  {
   "property": "C02",
   "status": "proved",
   "theorems": [
    "Verif.LS.C02_line_search_terminates"
   ],
   "note": "Every objective sequence including NaN; bound n_max+1 attained (example)."
  },
  {
   "property": "C03",
   "status": "partial",
   "theorems": [
    "Verif.LS.C03_step_is_number_partial",
    "Verif.LS.C03_violated"
   ],
   "note": "The code violates the property: a witness gives NaN when the interpolant degenerates to a parabola; the partial theorem shows this is the only way."
  },
  {
   "property": "C04",
   "status": "proved",
   "theorems": [
    "Verif.LS.C04_quadratic_minimises",
    "Verif.LS.C04_cubic_minimises"
   ],
   "note": "Interpolants characterised by their interpolation conditions, not by the code's coefficients."
  },
  {
   "property": "C05",
   "status": "partial",
   "theorems": [
    "Verif.Sol.C05_line_search_result_macro",
    "Verif.Sol.C05_line_search_macro",
    "Verif.Sol.C05_line_search_result_micro_partial",
    "Verif.Sol.C05_violated_micro",
    "Verif.Sol.C05_violated_inactive"
   ],
   "note": "Proved for the macro block and the single-block layout with any residual; violated for the slip block (reset hits the macro block only) and for inactive slips in the monolithic loop; the partial theorem gives the exact result there."
  },
  {
   "property": "C06",
   "status": "partial",
   "theorems": [
    "Verif.Sol.C06_single_block",
    "Verif.Sol.C06_two_block_reachable",
    "Verif.Sol.C06_violated_two_block",
    "Verif.Sol.C06_multi"
   ],
   "note": "Holds in the single-block layout, violated in the two-block layout the application builds for iterative solvers with block preconditioner."
  },
  {
   "property": "C07",
   "status": "proved",
   "theorems": [
    "Verif.Drv.C07_monolithic_rate_dependent"
   ],
   "note": "Arbitrary state type and operations; an operation that throws appears as a norm that is not a number (C98 has the exact version and relates the two)."
  },
  {
   "property": "C08",
   "status": "partial",
   "theorems": [
    "Verif.Drv.C08_active_set_consistent_partial",
    "Verif.Drv.C08_residual_partial",
    "Verif.Drv.C08_violated_termination",
    "Verif.Drv.C08_violated_residual"
   ],
   "note": "Non-termination witness for a single elastic-perfectly plastic point; witness of a returned solution with large residual; consistency proved."
  },
  {
   "property": "C09",
   "status": "proved",
   "theorems": [
    "Verif.Drv.C09_bouncing",
    "Verif.Drv.C09_no_stale_acceptance"
   ],
   "note": "Arbitrary state type and operations."
  },
  {
   "property": "C10",
   "status": "proved",
   "theorems": [
    "Verif.Drv.C10_embracing"
   ],
   "note": "Uses idempotent residual evaluation as hypothesis (C18, C22)."
  },
  {
   "property": "C100",
   "status": "partial",
   "theorems": [
    "Verif.Asm.C100_cell",
    "Verif.Asm.C100_face",
    "Verif.Asm.C100_history",
    "Verif.Asm.C100_solution",
    "Verif.Asm.C100_newton",
    "Verif.Asm.C100_run",
    "Verif.Asm.C100_trial",
    "Verif.Asm.C100_active",
    "Verif.Asm.C100_read",
    "Verif.Asm.C100_output_partial",
    "Verif.Asm.C100_average",
    "Verif.Asm.C100_output_order",
    "Verif.Asm.C100_violated",
    "Verif.Asm.C100_violated_numbering"
   ],
   "note": "All cells, faces, meshes of grains, Newton matrices and runs, any number of slips, every permutation of the slip systems, every choice of reversed directions and normals and every renumbering of the degrees of freedom; real arithmetic. Violated: the column EquivalentPlasticStrain is the signed sum of the slips (C100_violated; invariant only if no vector is reversed, C100_output_order); with the rate-independent active set and slips tied by a constraint, the degree of freedom that is held depends on the numbering (C100_violated_numbering)."
  },
  {
   "property": "C101",
   "status": "proved",
   "theorems": [
    "Verif.Asm.C101_cell",
    "Verif.Asm.C101_face",
    "Verif.Asm.C101_solution",
    "Verif.Asm.C101_norm",
    "Verif.Asm.C101_newton",
    "Verif.Asm.C101_history",
    "Verif.Asm.C101_run",
    "Verif.Asm.C101_input_plane",
    "Verif.Asm.C101_input_space",
    "Verif.Asm.C101_average",
    "Verif.Asm.C101_output"
   ],
   "note": "All cells, grain boundaries in two and three dimensions, meshes of grains, linear systems and runs of any length, every orthogonal matrix, NaN included; real arithmetic. Constraints must treat the displacement components of a support point alike (clamped, prescribed vectors, periodic, hanging nodes); a condition on a single component along a fixed axis is not a rotatable input of the program. Under a reflection the third vector of a slip system is the reflected one. The mesh generator and deal.II's shape functions are the specification's scalar shape functions with turned gradients."
  },
  {
   "property": "C102",
   "status": "partial",
   "theorems": [
    "Verif.Life.C102_crystals",
    "Verif.Life.C102_hooke",
    "Verif.Life.C102_vectorial",
    "Verif.Life.C102_order",
    "Verif.Life.C102_posts_partial",
    "Verif.Life.C102_answers_partial",
    "Verif.Life.C102_laws_partial",
    "Verif.Life.C102_frames",
    "Verif.Life.C102_ready",
    "Verif.Life.C102_violated_postprocessor",
    "Verif.Life.C102_violated_retry",
    "Verif.Life.C102_violated_grown",
    "Verif.Life.C102_violated_doubled"
   ],
   "note": "Refusal before initialisation holds for crystals, Hooke's law, the vectorial microstress law, SimpleShear and Homogenization in every history; answers after one completed CrystalsData::init are those of the files in every later history whose further attempts are on meshes with the same number of crystals. Violated: Postprocessor with full output reads an unset flag; an object whose first init failed after reading orientations can never be initialised; a failed init on a larger mesh and a second init with an empty orientation file leave crystals and slip systems without data."
  },
  {
   "property": "C103",
   "status": "proved",
   "theorems": [
    "Verif.Asm.C103_laws",
    "Verif.Asm.C103_cell",
    "Verif.Asm.C103_face",
    "Verif.Asm.C103_solution",
    "Verif.Asm.C103_handed",
    "Verif.Asm.C103_history",
    "Verif.Asm.C103_run",
    "Verif.Asm.C103_trial",
    "Verif.Lin.C103_newton",
    "Verif.Lin.C103_algorithms",
    "Verif.Lin.C103_extrapolation",
    "Verif.AS.C103_active",
    "Verif.AS.C103_microstress",
    "Verif.Post.C103_output"
   ],
   "note": "For bodies whose grain boundaries do not open (with contact or cohesion the property is not expected: a boundary pressed together resists, one pulled apart does not). Monolithic algorithm: rate-dependent, or a set of active slips that does not change; the determination of the active set is covered by C103_active."
  },
  {
   "property": "C104",
   "status": "proved",
   "theorems": [
    "Verif.Asm.C104_laws",
    "Verif.Asm.C104_cohesive",
    "Verif.Asm.C104_cell",
    "Verif.Asm.C104_handed",
    "Verif.Asm.C104_solution",
    "Verif.Asm.C104_run",
    "Verif.Asm.C104_run_independent",
    "Verif.Asm.C104_run_opening",
    "Verif.Asm.C104_run_opening_independent",
    "Verif.Load.C104_programme"
   ],
   "note": "C104_handed: what the assembly hands to the solution algorithms is the same list of vectors and matrices in every state, so their iterations are the same ones. The numbers are real numbers, and the tolerance of deal.II's time stepping is a parameter."
  },
  {
   "property": "C105",
   "status": "proved",
   "theorems": [
    "Verif.Asm.C105_history",
    "Verif.Asm.C105_microstress",
    "Verif.Asm.C105_step",
    "Verif.Asm.C105_run",
    "Verif.Asm.C105_record",
    "Verif.Asm.C105_run_opening"
   ],
   "note": "Rate-independent material: every slip system that has moved still moves in the last of the replaced steps (a system that stops gets microstress 0 from the law and is left to the active set); rate-dependent: the last step has the average rate. Damage evolution of Ortiz et al."
  },
  {
   "property": "C106",
   "status": "proved",
   "theorems": [
    "Verif.Asm.C106_orientation",
    "Verif.Asm.C106_slip_system",
    "Verif.Asm.C106_turned",
    "Verif.Asm.C106_stress",
    "Verif.Asm.C106_vectorial",
    "Verif.Asm.C106_microtraction",
    "Verif.Asm.C106_cohesive",
    "Verif.Asm.C106_term",
    "Verif.Asm.C106_face",
    "Verif.Asm.C106_cell",
    "Verif.Asm.C106_residual",
    "Verif.Asm.C106_solution",
    "Verif.Asm.C106_satisfies",
    "Verif.Asm.C106_history",
    "Verif.Asm.C106_run",
    "Verif.Asm.C106_record",
    "Verif.Asm.C106_run_opening",
    "Verif.Asm.C106_output",
    "Verif.Asm.C106_average",
    "Verif.Asm.C106_body",
    "Verif.Asm.C106_state"
   ],
   "note": "The body is a stack of layers of elements that are products of plane elements with a one-dimensional partition of unity (what deal.II's FE_Q on extruded meshes is); slip directions and normals of the input file are not parallel to each other. Von Mises values of the homogenisation table differ between the programs (C55)."
  },
  {
   "property": "C107",
   "status": "proved",
   "theorems": [
    "Verif.Asm.C107_run",
    "Verif.Asm.C107_stress",
    "Verif.Asm.C107_stiffness",
    "Verif.Asm.C107_angle_plane",
    "Verif.Asm.C107_angle_space",
    "Verif.Asm.C107_third",
    "Verif.Asm.C107_cubic_crystals"
   ],
   "note": "Every grain may be turned by its own symmetry; the two sides of a grain boundary are then described differently. All slips use the same finite element (FE_Q of one degree in the code) and start with equal resistance. Damage records of faces are those of the views (opening grain boundaries: the opening does not depend on slips)."
  },
  {
   "property": "C108",
   "status": "partial",
   "theorems": [
    "Verif.Fp.C108_plane",
    "Verif.Fp.C108_space_partial",
    "Verif.Fp.C108_violated"
   ],
   "note": "Holds in two dimensions for every rounding to nearest. Fails in three dimensions, where the check has no tolerance: direction 3,3,0, normal 0,0,1, Euler angles 0, boundary normal 1,0,0 gives 1 + 2^-52 and an exception although the exact modulus is 1 (C108_violated). Overflow, fused multiply-add and the errors of deal.II's face normals (assumed below 8 units) are not modelled; in three dimensions the errors of the rotation are assumed below 2^-40."
  },
  {
   "property": "C109",
   "status": "proved",
   "theorems": [
    "Verif.Fp.C109_programme",
    "Verif.Fp.C109_skip",
    "Verif.Fp.C109_monotonic"
   ],
   "note": "For programmes that start at 0 (the only start the code can have), whose step sizes lie above 2^-44 of the number of steps times the end time and which satisfy the condition of C46 with twice the tolerance. dealii::DiscreteTime is transcribed from its documentation; step counts below 2^32."
  },
  {
   "property": "C11",
   "status": "partial",
   "theorems": [
    "Verif.Sol.C11_extrapolation_exact_on_lines",
    "Verif.Sol.C11_first_step_or_skipped",
    "Verif.Sol.C11_update_partial",
    "Verif.Sol.C11_violated_skipped_update"
   ],
   "note": "Start value proved; the stored update is wrong when extrapolation is skipped."
  },
  {
   "property": "C110",
   "status": "proved",
   "theorems": [
    "Verif.Ws.C110_residual",
    "Verif.Ws.C110_jacobian",
    "Verif.Ws.C110_residual_schedule",
    "Verif.Ws.C110_jacobian_schedule",
    "Verif.Ws.C110_buffers"
   ],
   "note": "In real arithmetic (sums do not depend on the order). deal.II's WorkStream is a sequence of worker and copier calls in which a copy object is used by one cell at a time; values of finite elements, history records and the solution are read-only arguments."
  },
  {
   "property": "C111",
   "status": "proved",
   "theorems": [
    "Verif.Fp.C111_resistance",
    "Verif.Fp.C111_monotone",
    "Verif.Fp.C111_trials",
    "Verif.Fp.C111_reset",
    "Verif.Fp.C111_dof",
    "Verif.Fp.C111_dof_value",
    "Verif.Fp.C111_lost",
    "Verif.Fp.C111_records_differ",
    "Verif.Fp.C111_damage",
    "Verif.Fp.C111_damage_negative",
    "Verif.Fp.C111_M1"
   ],
   "note": "Rounding to nearest with any tie rule, std::exp within one unit in the last place; no overflow. C111_lost, C111_records_differ and C111_damage_negative show what is lost: slip increments below 2^-54 of the resistance never harden, the two records of the resistances can differ in the last bit, and the Ortiz damage can be -2^-52. M1 keeps the proviso of C23 that the force is not below the endurance limit."
  },
  {
   "property": "C112",
   "status": "proved",
   "theorems": [
    "Verif.Fp.C112_space",
    "Verif.Fp.C112_plane",
    "Verif.Fp.C112_decimals"
   ],
   "note": "Rounding to nearest with any tie rule, cos and sin within 2^-52, both ways of computing the division of a vector by its norm. C112_decimals shows why the indices must be integers: (1.1, 3.3) and (3, -1) are orthogonal, but the file is rejected."
  },
  {
   "property": "C113",
   "status": "proved",
   "theorems": [
    "Verif.Asm.C113_solves",
    "Verif.Asm.C113_only",
    "Verif.Asm.C113_state",
    "Verif.Asm.C113_homogenised",
    "Verif.Asm.C113_boundary"
   ],
   "note": "Uniqueness needs the rate-dependent law and the bound on latent hardening of C84; the mesh enters by Gauss' theorem for admissible variations (SpecNoMean), shown for columns of any number of layers. The boundary stress of three-dimensional bodies is C57."
  },
  {
   "property": "C114",
   "status": "proved",
   "theorems": [
    "Verif.Ws.Bits.C114_residual",
    "Verif.Ws.Bits.C114_jacobian",
    "Verif.Ws.Bits.C114_trial",
    "Verif.Ws.Bits.C114_projection",
    "Verif.Ws.Bits.C114_trial_value",
    "Verif.Ws.Bits.C114_projection_value",
    "Verif.Ws.Bits.C114_order"
   ],
   "note": "Contract of the library: WorkStream runs the copiers one at a time in the order of the cells and never hands an object to two workers at once. What the workers read from fields and histories they do not write here; the interface histories that two cells share are C24 and C88. Another order of the cells, or another number of processes, may change the last bits (C114_order)."
  },
  {
   "property": "C115",
   "status": "proved",
   "theorems": [
    "Verif.Asm.C115_error",
    "Verif.Asm.C115_converged",
    "Verif.Asm.C115_distance",
    "Verif.Asm.C115_loads",
    "Verif.Asm.C115_returned"
   ],
   "note": "Bodies without grain boundary tractions, materials within the bound of C84 on latent hardening (beyond it a step can have several solutions). C115_distance needs a mesh on which the stored energy determines the unknowns."
  },
  {
   "property": "C116",
   "status": "proved",
   "theorems": [
    "Verif.Lin.C116_quadratic",
    "Verif.Lin.C116_error",
    "Verif.Lin.C116_solution",
    "Verif.Asm.C116_body"
   ],
   "note": "Rate-dependent monolithic algorithm with all unknowns in one block (C06). The hypotheses - the matrix is the derivative of the residual (C50, C68) with a Lipschitz tangent, and the linear solver is exact - fail at kinks such as a slip increment of zero with hardening and, by C68, while damage evolves; with the line search a start residual of zero is excluded (C97)."
  },
  {
   "property": "C117",
   "status": "proved",
   "theorems": [
    "Verif.Lin.C117_linear",
    "Verif.Lin.C117_solution",
    "Verif.Asm.C117_close",
    "Verif.Asm.C117_solvable",
    "Verif.Asm.C117_body"
   ],
   "note": "Rate-dependent monolithic algorithm with all unknowns in one block; the Jacobian of a hardening body is not the derivative of the residual (C50), so only linear convergence is claimed. The body theorems take the defect energy index 2, no grain boundary tractions, a stored energy that determines the unknowns and an exact linear solver (which C117_solvable shows to exist)."
  },
  {
   "property": "C118",
   "status": "proved",
   "theorems": [
    "Verif.Asm.C118_exists",
    "Verif.Asm.C118_unique",
    "Verif.Asm.C118_tolerance",
    "Verif.Asm.C118_step"
   ],
   "note": "Rate-dependent bodies without grain boundary tractions and with defect energy index at least 2, within the latent hardening bound of C84. The rate-independent law is a sign function, for which the residual has no zero in general; bodies whose boundary conditions leave a motion free of energy have no solution under a general load. Existence without the hardening bound: C129."
  },
  {
   "property": "C119",
   "status": "proved",
   "theorems": [
    "Verif.Asm.C119_exists",
    "Verif.Asm.C119_unique",
    "Verif.Asm.C119_tolerance"
   ],
   "note": "Rate-dependent bodies without grain boundary tractions, defect energy index at least 2, latent hardening within the bound of C84 for the largest step; the history of every step is that of the states of the run itself (C83's model of a run), each step's start values being free."
  },
  {
   "property": "C12",
   "status": "proved",
   "theorems": [
    "Verif.Sol.C12_history"
   ],
   "note": "All step counts."
  },
  {
   "property": "C120",
   "status": "proved",
   "theorems": [
    "Verif.Asm.C120_bouncing_error",
    "Verif.Asm.C120_embracing_error",
    "Verif.Asm.C120_algorithms"
   ],
   "note": "Rate-dependent bodies without grain boundary tractions, as in C118; the embracing algorithm needs an admissible start value because it never distributes the constraints. Nothing is assumed about the linear solvers, the line searches or the numbers of iterations; that the algorithms return at all is not claimed (C09, C10, C116, C117)."
  },
  {
   "property": "C121",
   "status": "proved",
   "theorems": [
    "Verif.Asm.C121_error",
    "Verif.Asm.C121_exists",
    "Verif.Asm.C121_unique",
    "Verif.Asm.C121_algorithms"
   ],
   "note": "Polycrystals whose grain boundaries do not open (no decohesion), rate-dependent; nothing is assumed about matrices, linear solvers, line searches or numbers of iterations; that the algorithms return at all is not claimed. With opening boundaries uniqueness is false (C84_violated_opening). Existence with opening boundaries and any hardening: C129."
  },
  {
   "property": "C122",
   "status": "proved",
   "theorems": [
    "Verif.Fp.C122_sides",
    "Verif.Fp.C122_schedule",
    "Verif.Fp.C122_maximum"
   ],
   "note": "Every operation rounded to nearest, ties broken alike for both signs (the default rounding mode); the two cells see exactly opposite normals; damage evolution of Ortiz et al.; no fused multiply-add."
  },
  {
   "property": "C123",
   "status": "partial",
   "theorems": [
    "Verif.Fp.C123_held_partial",
    "Verif.Fp.C123_recorded_partial",
    "Verif.Fp.C123_violated",
    "Verif.Fp.C123_violated_damage"
   ],
   "note": "Violated on oblique boundaries (witnesses proved for every rounding to nearest): the opening is measured by one formula and recorded by another one, which differ in the last place. Proved for boundaries along an axis whose sides do not overlap, e.g. the strips of the shipped problems; missing: oblique boundaries, where it is false."
  },
  {
   "property": "C124",
   "status": "proved",
   "theorems": [
    "Verif.Asm.C124_newton",
    "Verif.Asm.C124_residual",
    "Verif.Asm.C124_run",
    "Verif.Asm.C124_results",
    "Verif.Asm.C124_grains_residual",
    "Verif.Asm.C124_grains_run",
    "Verif.Asm.C124_grains"
   ],
   "note": "Exact arithmetic; the two runs may differ by rounding and by what the linear solvers leave over, which C119/C125 turn into a tolerance. Homogeneous internal constraints with boundary values given by B; decohesion left out in the results of runs. How results of processes are combined is C56."
  },
  {
   "property": "C125",
   "status": "proved",
   "theorems": [
    "Verif.Asm.C125_exists",
    "Verif.Asm.C125_unique",
    "Verif.Asm.C125_tolerance"
   ],
   "note": "Polycrystals whose grain boundaries do not open, rate-dependent; exact arithmetic."
  },
  {
   "property": "C126",
   "status": "partial",
   "theorems": [
    "Verif.Itf.C126_sides",
    "Verif.Itf.C126_traction_partial",
    "Verif.Itf.C126_opening_partial",
    "Verif.Itf.C126_violated",
    "Verif.Itf.C126_violated_sliding"
   ],
   "note": "Holds without coupling of the macroscopic traction to damage once the face has opened, and for the openings where the cells do not overlap. Violated: with coupling the reported traction is degraded with DamageEvolution::degradation_exponent, which is never initialised or parsed (the equations use that of DegradationFunction); a face that slides with zero tangential stiffness reports NaN since the norm of the old opening vector stands for the old effective opening; overlapping cells report an opening (C41)."
  },
  {
   "property": "C127",
   "status": "proved",
   "theorems": [
    "Verif.Asm.C127_run",
    "Verif.Asm.C127_results"
   ],
   "note": "For rate-dependent stable polycrystals without opening grain boundaries (the hypotheses of C125, met by the concrete polycrystal of C125). Polycrystals without grain boundaries are included."
  },
  {
   "property": "C128",
   "status": "proved",
   "theorems": [
    "Verif.Fp.C128_measured",
    "Verif.Fp.C128_recorded",
    "Verif.Fp.C128_opens",
    "Verif.Fp.C128_closes"
   ],
   "note": "Every operation rounded to nearest (branches: ties alike for both signs), no overflow, no fused multiply-add, normals of unit length up to 16 roundings. That C123 fails for openings that do not change is no contradiction: the tolerance is its quantitative complement. A closing boundary records |n.jump| (C41_violated), hence the hypothesis."
  },
  {
   "property": "C129",
   "status": "proved",
   "theorems": [
    "Verif.Asm.C129_step",
    "Verif.Asm.C129_run",
    "Verif.Asm.C129_closed_run",
    "Verif.Asm.C129_body"
   ],
   "note": "Rate-dependent law; existence, not uniqueness (two solutions: C84_violated_opening, and C84 for latent hardening beyond its bound). The hypothesis SpecRecords excludes the division 0/0 of C39 and nothing else: it fails only for a boundary that may open, has never opened, and has recorded a positive opening (a closing boundary does, C41_violated); boundaries that cannot open need no hypothesis (C129_closed_run)."
  },
  {
   "property": "C13",
   "status": "proved",
   "theorems": [
    "Verif.AS.C13_active_iff",
    "Verif.AS.C13_boundary_inactive",
    "Verif.AS.C13_trial_microstress"
   ],
   "note": "All dof lists, constraints, stresses; trial microstress also characterised."
  },
  {
   "property": "C130",
   "status": "partial",
   "theorems": [
    "Verif.Asm.C130_inactive_partial",
    "Verif.Asm.C130_active",
    "Verif.Asm.C130_violated"
   ],
   "note": "The code violates this: the active set is determined from a trial microstress evaluated with the old slips of all systems, so a slip system that is inactive in the accepted state may be stressed beyond its resistance by the slips of the other systems (C130_violated: two systems in an isotropic crystal, one active; the accepted state fulfils every condition of the algorithm and the inactive system carries 1.18 times its resistance). Proved: slips with vanishing residual row fulfil the condition (C130_active, shape functions of the slip nonnegative, i.e. linear elements), and so do inactive slips around which no slip has changed (C130_inactive_partial, away from boundaries with old slip gradients, C76_violated_boundary). Missing: the inactive slips next to changed ones, for which it is false."
  },
  {
   "property": "C131",
   "status": "partial",
   "theorems": [
    "Verif.Asm.C131_partial",
    "Verif.Asm.C131_moving_partial",
    "Verif.Asm.C131_violated"
   ],
   "note": "The code violates this: where an active slip stops during the step the law sets the microstress to zero, and no state then fulfils the equations (C131_violated: two systems, displacement prescribed; both systems are active for all slips, and for all slips the two residual rows differ from zero by at least 1/10). Proved: for every body there are a state and microstresses bounded by the slip resistances, equal to the law's wherever slip takes place, that fulfil all equations (C131_partial), and when all free slips move in it, it solves the equations as the code has them (C131_moving_partial). Missing: the microstress of a stopped slip as the code has it, for which it is false."
  },
  {
   "property": "C132",
   "status": "proved",
   "theorems": [
    "Verif.Asm.C132_error",
    "Verif.Asm.C132_rate",
    "Verif.Asm.C132_limit",
    "Verif.Asm.C132_unique",
    "Verif.Asm.C132_accepted"
   ],
   "note": "Real arithmetic; bodies without grain boundaries that open, hardening without or with latent hardening not beyond self hardening (0 ≤ q ≤ 1). The rate-independent solution is meant as in C131_partial (flow rule with the microstress of a stopped slip left open); what the code accepts is one (C132_accepted)."
  },
  {
   "property": "C133",
   "status": "proved",
   "theorems": [
    "Verif.Asm.C133_work",
    "Verif.Asm.C133_symmetric",
    "Verif.Asm.C133_bounds"
   ],
   "note": "Real arithmetic; specimens of one material in any orientations without supply and microtractions, whose fluctuation vanishes or is periodic at the boundary. C133_work with any slips; symmetry and bounds for states without slip, the lower bound for fluctuations of zero mean strain and uniform stresses whose strains average to the macroscopic strain."
  },
  {
   "property": "C134",
   "status": "proved",
   "theorems": [
    "Verif.Asm.C134_least",
    "Verif.Asm.C134_boundary",
    "Verif.Asm.C134_refined",
    "Verif.Asm.C134_linear"
   ],
   "note": "Real arithmetic, specimens as in C133 in states without slip. C134_refined assumes that the fine mesh represents the coarse displacements with their energy (nested elements, exact quadrature) and has the same volume."
  },
  {
   "property": "C135",
   "status": "proved",
   "theorems": [
    "Verif.Asm.C135_step",
    "Verif.Asm.C135_run",
    "Verif.Asm.C135_reported",
    "Verif.Asm.C135_passive",
    "Verif.Asm.C135_exists"
   ],
   "note": "Real arithmetic; materials as in C83 (C1122 < C1111, defect energy index at least 2), no grain-boundary terms. C135_step and C135_run for any supply, nodal forces and states; C135_reported and C135_passive for computed states of specimens without supply; C135_exists for rate-dependent behaviour: every programme of strains has a run."
  },
  {
   "property": "C136",
   "status": "proved",
   "theorems": [
    "Verif.Asm.C136_step",
    "Verif.Asm.C136_run",
    "Verif.Asm.C136_reported",
    "Verif.Asm.C136_passive",
    "Verif.Asm.C136_rest",
    "Verif.Asm.C136_exists"
   ],
   "note": "Real arithmetic; materials and grain boundaries as in C83 (C1122 < C1111, defect energy index at least 2, Ortiz damage from undamaged boundaries). C136_step and C136_run for any supply, loads, nodal forces and states; the others for computed states of specimens without supply, without loads in C136_passive and C136_rest. C136_exists for rate-dependent behaviour, excluding only steps whose records lead to the 0/0 of C39."
  },
  {
   "property": "C137",
   "status": "proved",
   "theorems": [
    "Verif.Asm.C137_body",
    "Verif.Asm.C137_grains",
    "Verif.Asm.C137_same"
   ],
   "note": "Real arithmetic; materials as in C84 (C1122 < C1111, defect energy index at least 2, linear hardening with latent hardening below the self hardening limit); no supply; C137_grains for grain boundaries that do not open (microtractions) and loads at the boundary. For computed states of one step from the same histories; existence is C121 and C129."
  },
  {
   "property": "C14",
   "status": "partial",
   "theorems": [
    "Verif.AS.C14_inactive_pinned",
    "Verif.AS.C14_inactive_update_zero",
    "Verif.AS.C14_active_free_partial",
    "Verif.AS.C14_violated_master_pinned"
   ],
   "note": "First half proved; second half violated by the code for a below-yield master visited before its over-yield slave (proved); holds otherwise."
  },
  {
   "property": "C15",
   "status": "proved",
   "theorems": [
    "Verif.AS.C15_inactive_iff",
    "Verif.AS.C15_partition",
    "Verif.AS.C15_rate_dependent",
    "Verif.AS.C15_computed_once"
   ],
   "note": ""
  },
  {
   "property": "C16",
   "status": "partial",
   "theorems": [
    "Verif.AS.C16_reset_partial",
    "Verif.AS.C16_reset_tied",
    "Verif.AS.C16_idempotent",
    "Verif.AS.C16_violated_tied_inactive",
    "Verif.AS.C16_violated_reachable"
   ],
   "note": "Holds for unconstrained and for tied dofs with inactive master; violated (proved) for an inactive dof tied to an active one."
  },
  {
   "property": "C17",
   "status": "proved",
   "theorems": [
    "Verif.Hist.C17_hardening_law",
    "Verif.Hist.C17_accumulated",
    "Verif.Hist.C17_perfect",
    "Verif.Hist.C17_frame"
   ],
   "note": "Any number of slip systems."
  },
  {
   "property": "C18",
   "status": "proved",
   "theorems": [
    "Verif.Hist.C18_trials_leave_no_trace",
    "Verif.Hist.C18_idempotent",
    "Verif.Hist.C18_reset_restores"
   ],
   "note": "Call sequences of any length."
  },
  {
   "property": "C19",
   "status": "proved",
   "theorems": [
    "Verif.Hist.C19_never_decreases",
    "Verif.Hist.C19_strict"
   ],
   "note": "Histories of any length."
  },
  {
   "property": "C20",
   "status": "proved",
   "theorems": [
    "Verif.Hist.C20_active",
    "Verif.Hist.C20_inactive",
    "Verif.Hist.C20_no_trace",
    "Verif.Hist.C20_perfect",
    "Verif.Hist.C20_same_law",
    "Verif.Hist.C20_missing_partner"
   ],
   "note": "Includes the dof map construction; where a partner dof is not owned the code reads out of range (proved), which deal.II's vertex ownership excludes."
  },
  {
   "property": "C21",
   "status": "proved",
   "theorems": [
    "Verif.Hist.C21_closed_form",
    "Verif.Hist.C21_max_is_bound",
    "Verif.Hist.C21_range_and_irreversible",
    "Verif.Hist.C21_set_to_zero",
    "Verif.Hist.C21_positive"
   ],
   "note": ""
  },
  {
   "property": "C22",
   "status": "proved",
   "theorems": [
    "Verif.Hist.C22_trials_leave_no_trace",
    "Verif.Hist.C22_idempotent",
    "Verif.Hist.C22_reset_restores"
   ],
   "note": ""
  },
  {
   "property": "C23",
   "status": "partial",
   "theorems": [
    "Verif.Hist.C23_range_partial",
    "Verif.Hist.C23_force_nonneg",
    "Verif.Hist.C23_history_partial",
    "Verif.Hist.C23_violated_negative",
    "Verif.Hist.C23_violated_reevaluation"
   ],
   "note": "Violated by the code: damage decreases (to negative values) below the endurance limit, and re-evaluation of a trial state is not idempotent (both proved). Range and irreversibility proved for zero endurance limit."
  },
  {
   "property": "C24",
   "status": "partial",
   "theorems": [
    "Verif.Hist.C24_interleavings_partial",
    "Verif.Hist.C24_sequential",
    "Verif.Hist.C24_violated_interleaving"
   ],
   "note": "Violated: a statement-level interleaving leaves the damage of the old maximum (proved). For all interleavings: maximum right, damage one of two values."
  },
  {
   "property": "C25",
   "status": "proved",
   "theorems": [
    "Verif.Store.C25_symmetric",
    "Verif.Store.C25_disjoint",
    "Verif.Store.C25_keeps_existing",
    "Verif.Store.C25_created_exactly",
    "Verif.Store.C25_one_record_per_point"
   ],
   "note": ""
  },
  {
   "property": "C26",
   "status": "proved",
   "theorems": [
    "Verif.Micro.C26_error",
    "Verif.Micro.C26_odd",
    "Verif.Micro.C26_strictMono",
    "Verif.Micro.C26_bounded",
    "Verif.Micro.C26_sign"
   ],
   "note": ""
  },
  {
   "property": "C27",
   "status": "proved",
   "theorems": [
    "Verif.Micro.C27_derivative",
    "Verif.Micro.C27_positive",
    "Verif.Micro.C27_slope_at_zero",
    "Verif.Micro.C27_sigmoid_is_reg",
    "Verif.Micro.C27_sigmoid_derivative"
   ],
   "note": ""
  },
  {
   "property": "C28",
   "status": "proved",
   "theorems": [
    "Verif.Micro.C28_current",
    "Verif.Micro.C28_dissipative",
    "Verif.Micro.C28_bounded",
    "Verif.Micro.C28_vanishes",
    "Verif.Micro.C28_rate_independent",
    "Verif.Micro.C28_monotone"
   ],
   "note": ""
  },
  {
   "property": "C29",
   "status": "partial",
   "theorems": [
    "Verif.Micro.C29_rate_independent",
    "Verif.Micro.C29_rate_dependent_partial",
    "Verif.Micro.C29_perfect",
    "Verif.Micro.C29_violated_rate_dependent",
    "Verif.Micro.C29_error_bound",
    "Verif.Micro.C29_symmetric"
   ],
   "note": "Exact for rate-independent behaviour and for perfect plasticity; rate-dependent with hardening is violated (the code uses the regularisation instead of the sign in the hardening term); error bound proved."
  },
  {
   "property": "C30",
   "status": "partial",
   "theorems": [
    "Verif.Cry.C30_defined",
    "Verif.Cry.C30_in_plane",
    "Verif.Cry.C30_power",
    "Verif.Cry.C30_gradient",
    "Verif.Cry.C30_tangent",
    "Verif.Cry.C30_symmetric_psd",
    "Verif.Cry.C30_convex",
    "Verif.Cry.C30_value",
    "Verif.Cry.C30_violated"
   ],
   "note": "Proved in full for a defect energy index of at least 2; the parameter file also accepts indices in [1,2), for which the microstress is NaN (proved)."
  },
  {
   "property": "C31",
   "status": "proved",
   "theorems": [
    "Verif.Cry.C31_reference",
    "Verif.Cry.C31_symmetries",
    "Verif.Cry.C31_frame_indifferent",
    "Verif.Cry.C31_isotropic",
    "Verif.Cry.C31_stress_symmetric",
    "Verif.Cry.C31_plane"
   ],
   "note": ""
  },
  {
   "property": "C32",
   "status": "partial",
   "theorems": [
    "Verif.Cry.C32_positive_partial",
    "Verif.Cry.C32_violated",
    "Verif.Cry.C32_necessary"
   ],
   "note": "Violated: the file check accepts C1122 >= C1111 (witness). Proved for C1122 < C1111, which is shown necessary."
  },
  {
   "property": "C33",
   "status": "proved",
   "theorems": [
    "Verif.Cry.C33_split",
    "Verif.Cry.C33_plastic_entries",
    "Verif.Cry.C33_symmetric",
    "Verif.Cry.C33_volume"
   ],
   "note": ""
  },
  {
   "property": "C34",
   "status": "partial",
   "theorems": [
    "Verif.Cry.C34_triad_partial",
    "Verif.Cry.C34_pair_partial",
    "Verif.Cry.C34_accepted_partial",
    "Verif.Cry.C34_violated",
    "Verif.Cry.C34_violated_zero",
    "Verif.Cry.C34_rotations",
    "Verif.Cry.C34_convention"
   ],
   "note": "Proved for exactly orthogonal non-zero input; for every accepted input the deviation is bounded by eps/(|s||m|). Violated for short vectors (check before normalisation) and zero vectors."
  },
  {
   "property": "C35",
   "status": "proved",
   "theorems": [
    "Verif.Cry.C35_traction",
    "Verif.Cry.C35_work",
    "Verif.Cry.C35_pressure"
   ],
   "note": ""
  },
  {
   "property": "C36",
   "status": "proved",
   "theorems": [
    "Verif.Itf.C36_intra_symmetric",
    "Verif.Itf.C36_bounded",
    "Verif.Itf.C36_sides",
    "Verif.Itf.C36_equal_orientation",
    "Verif.Itf.C36_value"
   ],
   "note": ""
  },
  {
   "property": "C37",
   "status": "proved",
   "theorems": [
    "Verif.Itf.C37_nonneg",
    "Verif.Itf.C37_quadratic",
    "Verif.Itf.C37_traction_is_gradient",
    "Verif.Itf.C37_tangents",
    "Verif.Itf.C37_sides",
    "Verif.Itf.C37_compatible"
   ],
   "note": ""
  },
  {
   "property": "C38",
   "status": "proved",
   "theorems": [
    "Verif.Itf.C38_bound",
    "Verif.Itf.C38_energy",
    "Verif.Itf.C38_loading",
    "Verif.Itf.C38_unloading",
    "Verif.Itf.C38_continuous",
    "Verif.Itf.C38_dissipative"
   ],
   "note": ""
  },
  {
   "property": "C39",
   "status": "partial",
   "theorems": [
    "Verif.Itf.C39_defined_iff",
    "Verif.Itf.C39_defined_partial",
    "Verif.Itf.C39_violated"
   ],
   "note": "Violated: after one compressed step the closed interface's traction is 0*0/0 = NaN (reachable witness, all parameters). Proved for histories without compression; exact characterisation of undefined states."
  },
  {
   "property": "C40",
   "status": "proved",
   "theorems": [
    "Verif.Itf.C40_cohesive",
    "Verif.Itf.C40_contact",
    "Verif.Itf.C40_tangents"
   ],
   "note": ""
  },
  {
   "property": "C41",
   "status": "partial",
   "theorems": [
    "Verif.Itf.C41_stored_partial",
    "Verif.Itf.C41_stored_general",
    "Verif.Itf.C41_kept",
    "Verif.Itf.C41_violated"
   ],
   "note": "Violated in compression: the stored opening takes the norm of the normal part before the Macaulay bracket. Proved for non-compressed interfaces, general value characterised."
  },
  {
   "property": "C42",
   "status": "partial",
   "theorems": [
    "Verif.Itf.C42_open",
    "Verif.Itf.C42_penetration",
    "Verif.Itf.C42_continuous",
    "Verif.Itf.C42_tangent_partial",
    "Verif.Itf.C42_violated_scaling"
   ],
   "note": "Violated: get_jacobian lacks the factor characteristic displacement; true derivative is that factor times get_jacobian."
  },
  {
   "property": "C43",
   "status": "partial",
   "theorems": [
    "Verif.Itf.C43_degradation",
    "Verif.Itf.C43_derivative_partial",
    "Verif.Itf.C43_violated_uncoupled",
    "Verif.Itf.C43_violated_small_exponents"
   ],
   "note": "Violated: derivative value of uncoupled interfaces is 1 instead of 0; exponent 0 is accepted and never degrades."
  },
  {
   "property": "C44",
   "status": "proved",
   "theorems": [
    "Verif.Fld.C44_no_gaps_no_overlaps",
    "Verif.Fld.C44_shared_displacement",
    "Verif.Fld.C44_lookup",
    "Verif.Fld.C44_lookup_decides",
    "Verif.Fld.C44_elements",
    "Verif.Fld.C44_blocks"
   ],
   "note": ""
  },
  {
   "property": "C45",
   "status": "proved",
   "theorems": [
    "Verif.Fld.C45_partition",
    "Verif.Fld.C45_norms_single",
    "Verif.Fld.C45_norms_blocks",
    "Verif.Fld.C45_layouts_agree",
    "Verif.Fld.C45_distribution",
    "Verif.Fld.C45_previous_solutions"
   ],
   "note": ""
  },
  {
   "property": "C46",
   "status": "partial",
   "theorems": [
    "Verif.Load.C46_programme_partial",
    "Verif.Load.C46_monotonic_partial",
    "Verif.Load.C46_terminates",
    "Verif.Load.C46_violated_swallowed",
    "Verif.Load.C46_violated_zero_duration"
   ],
   "note": "Proved for positive durations when what follows a phase is at least 5% of a step (deal.II's DiscreteTime tolerance). Violated otherwise: a short cyclic phase is swallowed; zero durations are accepted."
  },
  {
   "property": "C47",
   "status": "proved",
   "theorems": [
    "Verif.Load.C47_skip",
    "Verif.Load.C47_extrema"
   ],
   "note": "For step counts that fit unsigned int."
  },
  {
   "property": "C48",
   "status": "partial",
   "theorems": [
    "Verif.Load.C48_components",
    "Verif.Load.C48_monotonic_partial",
    "Verif.Load.C48_violated_cyclic",
    "Verif.Load.C48_dead_branch_jump"
   ],
   "note": "Violated: the constructor hard-codes monotonic loading, so cyclic programmes are never applied; the unused cyclic branch also lacks the strip height."
  },
  {
   "property": "C49",
   "status": "proved",
   "theorems": [
    "Verif.Load.C49_strips",
    "Verif.Load.C49_monotone"
   ],
   "note": ""
  },
  {
   "property": "C50",
   "status": "partial",
   "theorems": [
    "Verif.Asm.C50_derivative_partial",
    "Verif.Asm.C50_derivative_exact",
    "Verif.Asm.C50_violated"
   ],
   "note": "Violated for the rate-dependent law with hardening: the local matrix misses the derivative of the slip resistance (exact missing term given). Exact for the rate-independent law and for perfect plasticity."
  },
  {
   "property": "C51",
   "status": "proved",
   "theorems": [
    "Verif.Asm.C51_symmetric",
    "Verif.Asm.C51_interface"
   ],
   "note": "Cell part and grain boundary part (diagonal block symmetric, coupling blocks of the two sides transposes)."
  },
  {
   "property": "C52",
   "status": "proved",
   "theorems": [
    "Verif.Asm.C52_balance",
    "Verif.Asm.C52_defined",
    "Verif.Asm.C52_resists",
    "Verif.Asm.C52_slips",
    "Verif.Asm.C52_compatible"
   ],
   "note": "One face quadrature point seen from both cells."
  },
  {
   "property": "C53",
   "status": "partial",
   "theorems": [
    "Verif.Asm.C53_values",
    "Verif.Asm.C53_linear_blocks_partial",
    "Verif.Asm.C53_slip_block_partial",
    "Verif.Asm.C53_quotient_partial",
    "Verif.Asm.C53_violated"
   ],
   "note": "The quotient is computed exactly for every entry. For rate-dependent behaviour every entry is the exact difference quotient of the assembled right-hand side, for every state and step length (C53_quotient_partial). It equals the assembled entry without macroscopic strain and with dn0 = 1; violated otherwise: the perturbed strain omits the macroscopic strain (an error growing like 1/h) and the perturbed slip lacks the factor dn0."
  },
  {
   "property": "C54",
   "status": "partial",
   "theorems": [
    "Verif.Dam.C54_uniform",
    "Verif.Dam.C54_uniform_hanging",
    "Verif.Dam.C54_conserved",
    "Verif.Dam.C54_bounds_partial",
    "Verif.Dam.C54_average_partial",
    "Verif.Dam.C54_violated_projection",
    "Verif.Dam.C54_violated_uninitialised"
   ],
   "note": "Uniform damage is reproduced and the integral conserved for every element. The bounds need non-negative shape functions, which the quadratic element of the projection lacks (negative damage at a vertex), and an accumulator of get_macroscopic_damage that happens to hold zero (it is not initialised)."
  },
  {
   "property": "C55",
   "status": "partial",
   "theorems": [
    "Verif.Post.C55_formula",
    "Verif.Post.C55_measure",
    "Verif.Post.C55_frame",
    "Verif.Post.C55_plastic",
    "Verif.Post.C55_plastic_3d",
    "Verif.Post.C55_table_3d",
    "Verif.Post.C55_table_2d",
    "Verif.Post.C55_table_2d_partial",
    "Verif.Post.C55_violated"
   ],
   "note": "Holds for the pointwise measures and the table in 3D; violated by the homogenisation table in 2D, which takes the deviator of the plane tensor with factor 1/3 and misses the out-of-plane stress."
  },
  {
   "property": "C56",
   "status": "proved",
   "theorems": [
    "Verif.Post.C56_average",
    "Verif.Post.C56_partition",
    "Verif.Post.C56_bounds",
    "Verif.Post.C56_uniform",
    "Verif.Post.C56_split"
   ],
   "note": ""
  },
  {
   "property": "C57",
   "status": "partial",
   "theorems": [
    "Verif.Post.C57_average_2d_partial",
    "Verif.Post.C57_violated_3d",
    "Verif.Post.C57_load_partial",
    "Verif.Post.C57_violated_cyclic"
   ],
   "note": "Holds in 2D and for monotonic loading; in 3D the integral is divided by a width instead of an area, and the cyclic load is reported by another formula than the applied one."
  },
  {
   "property": "C58",
   "status": "partial",
   "theorems": [
    "Verif.Post.C58_layout",
    "Verif.Post.C58_titles",
    "Verif.Post.C58_complete",
    "Verif.Post.C58_primary",
    "Verif.Post.C58_values_partial",
    "Verif.Post.C58_fluctuations",
    "Verif.Post.C58_violated"
   ],
   "note": "All columns complete and correct except the stress fluctuations, scaled twice by the characteristic stress."
  },
  {
   "property": "C59",
   "status": "partial",
   "theorems": [
    "Verif.Util.C59_line_partial",
    "Verif.Util.C59_columns",
    "Verif.Util.C59_twice",
    "Verif.Util.C59_violated"
   ],
   "note": "Holds for histories writing only to declared columns, whole-number columns holding 32-bit whole numbers; violated otherwise: a value written before the declaration makes the declaration fail and is lost, negative values in whole-number columns are undefined behaviour. Decimal rounding and padding are not modelled."
  },
  {
   "property": "C60",
   "status": "proved",
   "theorems": [
    "Verif.Util.C60_identical"
   ],
   "note": "Regular files; directories, devices and concurrent writers are not modelled."
  },
  {
   "property": "C61",
   "status": "partial",
   "theorems": [
    "Verif.Prm.C61_krylov",
    "Verif.Prm.C61_newton",
    "Verif.Prm.C61_line_search",
    "Verif.Prm.C61_numbers",
    "Verif.Prm.C61_default",
    "Verif.Prm.C61_violated"
   ],
   "note": "Holds for positive reference values; the parameter file also accepts zero, where the numbers are infinite or NaN."
  },
  {
   "property": "C62",
   "status": "proved",
   "theorems": [
    "Verif.Drv.C62_krylov_tolerance"
   ],
   "note": ""
  },
  {
   "property": "C63",
   "status": "proved",
   "theorems": [
    "Verif.Drv.C63_monolithic",
    "Verif.Drv.C63_monolithic_rate_independent",
    "Verif.Drv.C63_bouncing",
    "Verif.Drv.C63_embracing",
    "Verif.Sol.C63_update_keeps",
    "Verif.Sol.C63_reset_keeps",
    "Verif.Sol.C63_line_search_keeps",
    "Verif.Sol.C63_distribute_establishes"
   ],
   "note": "For constraints closed and local to blocks."
  },
  {
   "property": "C64",
   "status": "partial",
   "theorems": [
    "Verif.Par.C64_together_partial",
    "Verif.Par.C64_single_partial",
    "Verif.Par.C64_violated"
   ],
   "note": "Holds for rate-dependent behaviour, for one process, and if active sets change on all processes or none; violated otherwise: the locally owned active sets are compared without a reduction."
  },
  {
   "property": "C65",
   "status": "partial",
   "theorems": [
    "Verif.Itf.C65_loading_partial",
    "Verif.Itf.C65_unloading_partial",
    "Verif.Itf.C65_violated_scaling"
   ],
   "note": "Violated: get_jacobian lacks the factor characteristic displacement; proved that the factor times get_jacobian is the derivative on both branches."
  },
  {
   "property": "C66",
   "status": "partial",
   "theorems": [
    "Verif.Asm.C66_semidefinite_partial",
    "Verif.Asm.C66_definite_partial",
    "Verif.Asm.C66_violated"
   ],
   "note": "Holds for cubic constants with C1122 < C1111 and hardening parameter in [0,1]; violated for hardening parameters above 1 (the default is 1.4) in rate-independent behaviour."
  },
  {
   "property": "C67",
   "status": "partial",
   "theorems": [
    "Verif.Fld.C67_plane_partial",
    "Verif.Fld.C67_solid_partial",
    "Verif.Fld.C67_exact_2d",
    "Verif.Fld.C67_exact_3d",
    "Verif.Fld.C67_violated_default"
   ],
   "note": "Exact answer for all degrees: holds in 2D for displacement degree at most 2 and slip degree not above it, in 3D for equal degrees of at most 2. Violated otherwise, in particular for the default degrees in 3D, where displacements at grain boundaries are set to zero: the code looks up a face index in the numbering of the cell."
  },
  {
   "property": "C68",
   "status": "partial",
   "theorems": [
    "Verif.Asm.C68_tangent_partial",
    "Verif.Asm.C68_violated_coupled"
   ],
   "note": "Holds while the damage is frozen or uncoupled and characteristic displacements are 1; violated while evolving damage degrades the traction (the derivative of the degradation is missing)."
  },
  {
   "property": "C69",
   "status": "partial",
   "theorems": [
    "Verif.Asm.C69_residual",
    "Verif.Asm.C69_equilibrium_partial",
    "Verif.Asm.C69_violated"
   ],
   "note": "Holds for dn3 = dn0; violated otherwise: the boundary integral lacks the factor dn3/dn0 of the stress term."
  },
  {
   "property": "C70",
   "status": "partial",
   "theorems": [
    "Verif.Post.C70_factor",
    "Verif.Post.C70_split_partial",
    "Verif.Prm.C70_units",
    "Verif.Post.C70_violated"
   ],
   "note": "Holds for physical output; violated for dimensionless output of a problem with dn0 different from 1."
  },
  {
   "property": "C71",
   "status": "proved",
   "theorems": [
    "Verif.Post.C71_plane",
    "Verif.Post.C71_solid"
   ],
   "note": "The stiffness of the output is that of the crystal's rotation (C34)."
  },
  {
   "property": "C72",
   "status": "partial",
   "theorems": [
    "Verif.Prm.C72_point",
    "Verif.Prm.C72_similar_partial",
    "Verif.Prm.C72_history",
    "Verif.Prm.C72_violated"
   ],
   "note": "Cell terms of the residual. Violated when the fourth dimensionless number is 1 (for example all reference values at their default 1): the solver then takes the problem for a dimensional one and the defect energy enters twice."
  },
  {
   "property": "C73",
   "status": "partial",
   "theorems": [
    "Verif.Prm.C73_reported",
    "Verif.Prm.C73_shear_partial",
    "Verif.Prm.C73_violated"
   ],
   "note": "Holds for characteristic length 1; otherwise the applied shear is too small by that factor."
  },
  {
   "property": "C74",
   "status": "partial",
   "theorems": [
    "Verif.App.C74_boundary_conditions_partial",
    "Verif.App.C74_together",
    "Verif.App.C74_boundary_active",
    "Verif.App.C74_close",
    "Verif.App.C74_violated"
   ],
   "note": "Holds when the active sets do not separate periodic partners (in particular when partners yield together, and without an active set). Violated otherwise: the rate-independent active set constrains one partner of a periodic pair only, because the constraints it looks at contain no periodicity."
  },
  {
   "property": "C75",
   "status": "partial",
   "theorems": [
    "Verif.Run.C75_schedule_partial",
    "Verif.Run.C75_last",
    "Verif.Run.C75_count",
    "Verif.Run.C75_command_line",
    "Verif.Run.C75_violated"
   ],
   "note": "Holds for frequencies other than zero; frequency 0 is accepted by the parameter file and leads to a remainder by zero in the first step."
  },
  {
   "property": "C76",
   "status": "partial",
   "theorems": [
    "Verif.Asm.C76_residual",
    "Verif.Asm.C76_balance_partial",
    "Verif.Asm.C76_active_partial",
    "Verif.Asm.C76_uniform",
    "Verif.Asm.C76_boundary",
    "Verif.Asm.C76_violated_boundary",
    "Verif.Asm.C76_violated_microtraction"
   ],
   "note": "Holds for unconstrained degrees of freedom away from the boundary of the domain and from grain boundaries with microtractions. At the boundary the trial microstress contains a flux the residual does not have; at grain boundaries it lacks the microtraction the residual has."
  },
  {
   "property": "C77",
   "status": "proved",
   "theorems": [
    "Verif.Lin.C77_pattern",
    "Verif.Lin.C77_interface"
   ],
   "note": "For the constraints of the application and every active set; deal.II's handling of constraints in patterns and matrices is a stated contract."
  },
  {
   "property": "C78",
   "status": "proved",
   "theorems": [
    "Verif.Lin.C78_internal",
    "Verif.Lin.C78_residual",
    "Verif.Lin.C78_monolithic",
    "Verif.Lin.C78_block"
   ],
   "note": "Arbitrary local matrices and vectors, any number of cells; linear solves taken as exact (C62 treats their tolerance)."
  },
  {
   "property": "C79",
   "status": "partial",
   "theorems": [
    "Verif.Lin.C79_reduced",
    "Verif.Lin.C79_monolithic_partial",
    "Verif.Lin.C79_violated"
   ],
   "note": "Holds while the microforce balance holds exactly; otherwise the right-hand side of the reduced system lacks the residual of the slips (witness)."
  },
  {
   "property": "C80",
   "status": "partial",
   "theorems": [
    "Verif.Prm.C80_cohesive",
    "Verif.Prm.C80_contact",
    "Verif.Prm.C80_microtraction",
    "Verif.Prm.C80_form",
    "Verif.Prm.C80_debug",
    "Verif.Prm.C80_release",
    "Verif.Prm.C80_slip_rows",
    "Verif.Prm.C80_face_partial",
    "Verif.Prm.C80_violated"
   ],
   "note": "The laws scale correctly when given the characteristic quantities (C80_form: then the property holds for every state). The solver constructs the microtraction and the cohesive law without them: violated in release builds (the check is a debug assertion), exact factor for the microforces."
  },
  {
   "property": "C81",
   "status": "partial",
   "theorems": [
    "Verif.Files.C81_accepted",
    "Verif.Files.C81_missing",
    "Verif.Files.C81_round_trip",
    "Verif.Files.C81_refused",
    "Verif.Files.C81_counts",
    "Verif.Files.C81_crystals",
    "Verif.Files.C81_violated_blank",
    "Verif.Files.C81_violated_columns",
    "Verif.Files.C81_violated_ids"
   ],
   "note": "acceptance characterised for every text and every number parser, round trip for every list of vectors and every number format; the full property is false of the code and the negations are proved: lines behind a blank line are dropped silently, surplus columns are written behind the end of the tensor in a release build, gaps in the material ids lead to an index behind the end"
  },
  {
   "property": "C82",
   "status": "partial",
   "theorems": [
    "Verif.Load.C82_zero",
    "Verif.Load.C82_violated",
    "Verif.Load.C82_unloaded_partial",
    "Verif.Load.C82_monotonic_partial",
    "Verif.Load.C82_cyclic_partial"
   ],
   "note": "Violated by every monotonic programme with a load: the constructor drops the loads of the programme and the object returns zero traction at all times (proved). Holds only for programmes without load."
  },
  {
   "property": "C83",
   "status": "partial",
   "theorems": [
    "Verif.Asm.C83_balance_partial",
    "Verif.Asm.C83_accepted_partial",
    "Verif.Asm.C83_run_partial",
    "Verif.Asm.C83_run_accepted_partial",
    "Verif.Asm.C83_stored_nonneg",
    "Verif.Asm.C83_unloaded_partial",
    "Verif.Asm.C83_grains_partial",
    "Verif.Asm.C83_grains_accepted_partial",
    "Verif.Asm.C83_grains_run_partial",
    "Verif.Asm.C83_grains_run_accepted_partial",
    "Verif.Asm.C83_opening_partial",
    "Verif.Asm.C83_opening_accepted_partial",
    "Verif.Asm.C83_opening_run_partial",
    "Verif.Asm.C83_opening_run_accepted_partial",
    "Verif.Asm.C83_violated"
   ],
   "note": "Energy balance of a time step, and by induction of a run of any number of steps of any sizes, for any mesh, state and load, rate-dependent or rate-independent, any latent hardening parameter >= 0; also for polycrystals with microtractions on the grain boundaries (their energy counts as stored) and loaded faces, and with opening grain boundaries (cohesive law with unloading to the origin, degraded by damage, contact penalty, microtractions degraded by damage; the recoverable energy counts as stored; Ortiz damage over runs of any length from undamaged boundaries, any monotone damage for a step). Missing: C1122 > C1111 (accepted by the code; C83_violated shows the balance fails there), defect energy index below 2, M1 damage over runs (damage may decrease, C23), and the temporal drift of the supply term."
  },
  {
   "property": "C84",
   "status": "partial",
   "theorems": [
    "Verif.Asm.C84_unique_partial",
    "Verif.Asm.C84_state_partial",
    "Verif.Asm.C84_grains_partial",
    "Verif.Asm.C84_grains_state_partial",
    "Verif.Asm.C84_violated",
    "Verif.Asm.C84_violated_opening"
   ],
   "note": "Proved for latent hardening parameters in [0,1] (or perfect plasticity) when the regularisation is sharp: modulus * parameter * n * k * dt <= 4 * resistance (no condition for rate-independent behaviour, for parameter 0 or perfect plasticity), C1122 < C1111, defect energy index >= 2; grain boundaries with microtractions and loaded faces included, opening grain boundaries not. With the default latent hardening parameter 1.4 the property is false: a concrete time step with two solutions is proved. With opening grain boundaries it is false for every latent hardening parameter: two grains held together by a cohesive boundary and pulled apart by given forces have two solutions of the first step (opened by 1 or by 2)."
  },
  {
   "property": "C85",
   "status": "proved",
   "theorems": [
    "Verif.Post.C85_row_2d",
    "Verif.Post.C85_row_3d",
    "Verif.Post.C85_empty_2d",
    "Verif.Post.C85_averages_2d",
    "Verif.Post.C85_averages_3d"
   ],
   "note": "One row of the homogenisation table. The file format of deal.II's TableHandler (padding, precision) is not modelled: a cell is the last real value added to its column, or empty."
  },
  {
   "property": "C86",
   "status": "partial",
   "theorems": [
    "Verif.Post.C86_magnitude",
    "Verif.Post.C86_value",
    "Verif.Post.C86_separate",
    "Verif.Post.C86_names",
    "Verif.Post.C86_violated_sign"
   ],
   "note": "The written field is the magnitude of the slip quantity; for a negative trial microstress the sign is lost (C86_violated_sign), so the full claim holds only for nonnegative quantities."
  },
  {
   "property": "C87",
   "status": "partial",
   "theorems": [
    "Verif.Scr.C87_cell",
    "Verif.Scr.C87_thread",
    "Verif.Scr.C87_schedule",
    "Verif.Scr.C87_limit",
    "Verif.Scr.C87_face_release",
    "Verif.Scr.C87_violated",
    "Verif.Scr.C87_violated_debug"
   ],
   "note": "Holds for up to 3^dim slip systems. With more (e.g. the 48 systems of a bcc crystal in 3D) Scratch::reset, which takes the number of slip systems for the number of quadrature points, writes behind the end of its buffers (C87_violated); a debug build with decohesion aborts in the size check of get_function_values (C87_violated_debug)."
  },
  {
   "property": "C88",
   "status": "partial",
   "theorems": [
    "Verif.Itf.C88_two_views",
    "Verif.Itf.C88_energy_value",
    "Verif.Itf.C88_ortiz_partial",
    "Verif.Itf.C88_linear_partial",
    "Verif.Itf.C88_openings",
    "Verif.Itf.C88_violated"
   ],
   "note": "Holds for the damage model of Ortiz et al. and for linear degradation; violated for M1 with a nonlinear degradation function. Cells of one process are visited one after the other here; interleavings are C24."
  },
  {
   "property": "C89",
   "status": "proved",
   "theorems": [
    "Verif.Asm.C89_objective",
    "Verif.Asm.C89_resultant",
    "Verif.Asm.C89_reactions",
    "Verif.Asm.C89_reactions_tolerance"
   ],
   "note": "Infinitesimal rigid motions (the code is geometrically linear). That the finite element space contains them, and that face quadrature points and weights agree from both sides, is deal.II's (SpecRepresents, SpecPaired)."
  },
  {
   "property": "C90",
   "status": "partial",
   "theorems": [
    "Verif.Drv.C90_same_rate_dependent",
    "Verif.Drv.C90_same_rate_independent",
    "Verif.Drv.C90_same_bouncing",
    "Verif.Drv.C90_same_embracing",
    "Verif.Drv.C90_monolithic",
    "Verif.Drv.C90_rate_independent_partial",
    "Verif.Drv.C90_violated_restart",
    "Verif.Drv.C90_bouncing",
    "Verif.Drv.C90_embracing",
    "Verif.Drv.C90_violated_reduced",
    "Verif.Drv.C90_order",
    "Verif.Drv.C90_order_cases",
    "Verif.Drv.C90_columns",
    "Verif.Drv.C90_violated_table",
    "Verif.Drv.C90_shear_table",
    "Verif.Drv.C90_line_search_table"
   ],
   "note": "The values are right for the rate-dependent monolithic and for the staggered algorithms. Violated: the column LoadStep is declared and never filled, so writing the table after the first step breaks the contract of TableHandler (C90_violated_table); after a change of the active set the sum of the orders goes on while the iteration counter restarts (C90_violated_restart); a single macro iteration of the embracing algorithm gives 0/0 (C90_violated_reduced)."
  },
  {
   "property": "C91",
   "status": "proved",
   "theorems": [
    "Verif.Ini.C91_value",
    "Verif.Ini.C91_refused",
    "Verif.Ini.C91_read",
    "Verif.Ini.C91_semi_refused",
    "Verif.Ini.C91_semi_read",
    "Verif.Ini.C91_ranges",
    "Verif.Ini.C91_builds"
   ],
   "note": "All declarations, checks and parse functions of both problems (strip, semi-coupled). The conversion of text to numbers is deal.II's."
  },
  {
   "property": "C92",
   "status": "partial",
   "theorems": [
    "Verif.Ini.C92_template",
    "Verif.Ini.C92_semi_template",
    "Verif.Ini.C92_copy",
    "Verif.Ini.C92_semi_copy",
    "Verif.Ini.C92_defaults_partial",
    "Verif.Ini.C92_violated_defaults"
   ],
   "note": "Template and copy are proved. Violated: default constructor and default of the file disagree (verbosity, time step, coupling of the macroscopic traction to damage, maximum load, strain components), C92_violated_defaults."
  },
  {
   "property": "C93",
   "status": "partial",
   "theorems": [
    "Verif.Ini.C93_ignored",
    "Verif.Ini.C93_no_effect",
    "Verif.Ini.C93_unchosen",
    "Verif.Ini.C93_violated_start",
    "Verif.Ini.C93_violated_control",
    "Verif.Ini.C93_violated_recorded"
   ],
   "note": "Violated: entries without any effect (list `ignored`), among them the start time and load control; the recorded traction depends on a value no entry sets. That the members listed in Strip.observed are read nowhere else is from reading the source."
  },
  {
   "property": "C94",
   "status": "partial",
   "theorems": [
    "Verif.Ini.C91_ranges",
    "Verif.Ini.C91_builds",
    "Verif.Ini.C94_violated_release",
    "Verif.Ini.C94_violated_elastic"
   ],
   "note": "C91_ranges lists what every accepted file satisfies. Violated: the conditions checked by Assert only are not checked by release builds (C94_violated_release); elastic constants with indefinite energy are accepted by both (C94_violated_elastic)."
  },
  {
   "property": "C95",
   "status": "proved",
   "theorems": [
    "Verif.Drv.C95_same_rate_dependent",
    "Verif.Drv.C95_same_rate_independent",
    "Verif.Drv.C95_same_bouncing",
    "Verif.Drv.C95_same_embracing",
    "Verif.Drv.C95_monolithic",
    "Verif.Drv.C95_monolithic_threw",
    "Verif.Drv.C95_bouncing",
    "Verif.Drv.C95_bouncing_threw",
    "Verif.Drv.C95_embracing",
    "Verif.Drv.C95_count",
    "Verif.Drv.C95_last",
    "Verif.Drv.C95_columns"
   ],
   "note": "Complete description of the log of a step for every system, for accepted steps of the three algorithms and for given-up steps of the monolithic and the bouncing one; number of rows for every outcome. Release mode; the terminal copy is not modelled. If an operation throws, the real step ends at once (C98): its log is then the part written until then."
  },
  {
   "property": "C96",
   "status": "partial",
   "theorems": [
    "Verif.Drv.C96_debug_partial",
    "Verif.Drv.C96_violated_exact"
   ],
   "note": "Violated: a residual of exactly zero makes the logged order of convergence infinite, and AssertIsFinite ends the debug program although the release program accepts the step. Proved: with finite numbers both modes do the same, otherwise the log stops before the first such row. Other debug assertions (line search) are not part of this claim."
  },
  {
   "property": "C97",
   "status": "partial",
   "theorems": [
    "Verif.Lin.C97_elastic",
    "Verif.Lin.C97_monolithic_partial",
    "Verif.Lin.C97_bouncing_partial",
    "Verif.Lin.C97_bouncing_iteration",
    "Verif.Lin.C97_embracing_partial",
    "Verif.Lin.C97_violated_equilibrium",
    "Verif.Lin.C97_violated_elastic"
   ],
   "note": "Assembly, solve, update, line search and loop of each algorithm in one model, for a fixed set of active slips and exact linear solvers. Proved: elastic steps are linear (C97_elastic); without line search, or with one that does not start in equilibrium, the bounds hold. Violated: a line search that starts with a residual of exactly zero divides zero by zero; a step in equilibrium is then given up (C97_violated_equilibrium), and so is every step of the staggered algorithms while all slips are inactive (C97_violated_elastic). flag_line_search is true by default."
  },
  {
   "property": "C98",
   "status": "partial",
   "theorems": [
    "Verif.Drv.C98_monolithic",
    "Verif.Drv.C98_monolithic_same",
    "Verif.Drv.C98_monolithic_independent",
    "Verif.Drv.C98_bouncing",
    "Verif.Drv.C98_bouncing_same",
    "Verif.Drv.C98_embracing",
    "Verif.Drv.C98_embracing_same",
    "Verif.Drv.C98_violated_abort_monolithic",
    "Verif.Drv.C98_violated_abort_bouncing",
    "Verif.Drv.C98_violated_abort_embracing",
    "Verif.Drv.C98_violated_abort_bouncing_micro",
    "Verif.Drv.C98_violated_abort_embracing_micro"
   ],
   "note": "The three algorithms with operations that may fail at any point. Proved: the step stops at once, within the limits, never returns a state outside the tolerances, and with an exception unless a linear solve fails. Violated: a linear solver that fails ends in std::abort in the monolithic and the bouncing algorithm and in the first macroscopic and all microscopic solves of the embracing one (C98_violated_abort_*), while later macroscopic solves throw. The rate-independent monolithic algorithm need not end (C08)."
  },
  {
   "property": "C99",
   "status": "partial",
   "theorems": [
    "Verif.Fld.C99_frame",
    "Verif.Fld.C99_order",
    "Verif.Fld.C99_state",
    "Verif.Fld.C99_constraints",
    "Verif.Fld.C99_copy",
    "Verif.Fld.C99_copy_unready",
    "Verif.Fld.C99_violated_repeat",
    "Verif.Fld.C99_violated_repeat_extractors",
    "Verif.Fld.C99_violated_stale",
    "Verif.Fld.C99_violated_counts",
    "Verif.Fld.C99_violated_shared"
   ],
   "note": "Histories of calls on any number of objects and copies; one process, deal.II's numbering as a function of the elements. Violated: a second setup_dofs appends blocks and elements (C99_violated_repeat), a second setup_extractors keeps the old extractors in front (C99_violated_repeat_extractors); is_initialized stays true when the constraints are dropped or the numbering changes (C99_violated_stale); a copy set up anew renumbers the original (C99_violated_shared); the two counts of degrees of freedom are uninitialised without slip systems (C99_violated_counts)."
  }
 ]
}