# Formal model of j507/gCP in Lean 4 — design

gCP is a deal.II finite-element code for gradient crystal plasticity with
decohesion at grain boundaries. The model covers the parts of the code that
are *logic and algebra*: constitutive laws, internal-variable bookkeeping,
line search, the three Newton drivers, the active-set algorithm, the time
programme, index layout, assembly of local residuals/Jacobians as functions of
shape-function values, and post-processing formulas.

## Trusted base

* Lean 4.33.0's kernel. Every property theorem depends on at most `propext`,
  `Classical.choice`, `Quot.sound` (Mathlib's usual three; `AXIOMS.md`,
  written by `tools/axioms.py`, lists them theorem by theorem). No own axioms, no `native_decide`, no `bv_decide`.
* The reading of the C++ text in `/repo`. Each definition cites file and lines;
  nothing was compiled or run.
* **Numbers.** `double` is modelled by the real numbers `ℝ`. Rounding, overflow
  and underflow are *not* modelled. What floating point makes observable as a
  special value is modelled where the code can hit it: an operation which is
  `0/0`, `x/0` or `sqrt` of a negative number is a distinct outcome
  (`Option ℝ`, `none` = not a number), never Lean's totalised `x/0 = 0`, unless
  a theorem's hypotheses exclude that point explicitly. Comparisons with NaN are
  false, as in IEEE.
* `Assert` (debug-only) is ignored unless a definition has a `debug` argument
  (C61, C87, C91-C94): the release build is modelled. `AssertThrow` is a
  distinct error outcome.
* deal.II, Trilinos, MPI, the file system: not modelled. Linear solvers, the
  mesh, quadrature and shape functions enter as arbitrary functions, so theorems
  hold for all their behaviours; where a property needs more, the contract is a
  hypothesis or part of a cited definition: `AffineConstraints` (distribute,
  condense, resolution of lines), `DiscreteTime` (last step stretched by its
  tolerance of 5 per cent), `FEValues` (values at the quadrature points of the
  reinitialised cell, buffers of the documented length), `FESystem` numbering,
  partition of unity and matching quadrature points on the two sides of a face,
  `TableHandler` (padding C85, equal lengths when writing C90),
  `ParameterHandler` (C91-C94: patterns, last line wins, errors on undeclared
  entries), `std::getline`/`std::stod` (C81), `fs::exists`,
  `fs::create_directories`. `unsigned int` is `Nat` unless wrap-around matters
  (stated where used).

## Layout

`lean/Verif/Model/*.lean` — model, function by function, with citations.
`lean/Verif/Props/*.lean` — property theorems (`Cxx_…`), each with a
non-vacuity `example`, small specifications (`Spec…`) next to them.

Where the code violates a property, the negation is proved with a concrete
witness (`Cxx_violated…`) and the part that does hold is proved with suffix
`_partial`.

## Plan per property

| id | model | proof |
|---|---|---|
| C01–C04 | `LineSearch`: fields of the class, `get_lambda` returning `Option ℝ` | case analysis on clamping; induction over calls; Armijo ⇒ radicand ≥ 0 by AM-GM; witness for NaN at vanishing cubic coefficient |
| C05, C06 | trial solution as a two-block vector, `reset`/`update` per block, line-search loop | induction on number of backtracks; witness for the slip block |
| C07–C10 | small-step machines with arbitrary update maps and residual functions | ranking function / explicit fuel bound; invariants; non-termination witness for C08 |
| C11, C12 | vectors over ℝ, history record | algebra; induction over steps |
| C13–C16 | loop over dofs as a fold, sets as `Finset ℕ`/predicates | fold invariants; witness for master-before-slave order |
| C17–C20 | quadrature-point history record and ops | induction over op lists |
| C21–C24 | interface history record and ops; interleavings of two update programs | induction over histories; exhaustive-interleaving induction; fine-grained race witness; M1 witnesses |
| C25 | map keyed by sorted pair | induction over insertions |
| C26, C27 | five regularisations (erf by its integral) | calculus in Mathlib |
| C28–C30 | microstress laws | inequalities, `HasDerivAt` |
| C31–C35 | tensors as functions on `Fin 3`, crystals' rotations | finite sums, orthogonality |
| C36, C37 | interaction moduli, interface energy | Cauchy–Schwarz, quadratic forms, `HasDerivAt` |
| C38–C43 | cohesive, contact, degradation | calculus; witnesses for undefined or inconsistent branches |
| C44, C45 | extractor arithmetic, dof partition, norms | `omega`, sums |
| C46–C49 | SimpleLoading, DisplacementControl, make_grid | induction on steps, modular arithmetic |
| C50–C53 | local residual and matrix at quadrature points, arbitrary shape functions | `HasDerivAt`, algebra |
| C54–C58 | projection, averages, von Mises, output columns | convexity, sums of squares |
| C59, C60 | Logger as map + order list; files as byte lists | induction over calls |
| C61, C62 | parameter checks, dimensionless numbers | algebra |
| C63 | constraints as an idempotent projection | invariant over iterations |
| C64 | per-process decision at the end of the Newton loop | counterexample; sufficient condition |
| C65 | cohesive law (C38) | directional derivative along every line, product and chain rule |
| C66 | quadratic form of the local matrix of C50 | sum of elastic energy, defect energy curvature, hardening form; witness for hardening parameter > 1 |
| C52 | one face quadrature point assembled from both cells (`Model/Face.lean`), shape values arbitrary | flip symmetry of the laws (C40); chain rule for the Burgers tensor |
| C68 | same, with the Ortiz update of the record at the trial state | composition of C65, C42, C37 along a line; closed form of a counterexample |
| C69 | boundary integral plus cell residual of C50 | discrete divergence theorem as hypothesis; witness square |
| C70, C71 | output columns of C58 against the elastic/plastic split and against Hooke's law of the assembly | algebra on columns; witness for dimensionless output |
| C72 | cells assembled from the same material with and without the dimensionless form (`Model/Params.lean`) | homogeneity of every law; equality of residuals up to a positive unit; witness for dn3 = 1 |
| C73 | DisplacementControl, DimensionlessForm and the output column of the shear strain | algebra; witness for characteristic length 2 |
| C74 | constraint sets of the application (setup_constraints, update_dirichlet_boundary_conditions), active set determination, updates of the trial solution, any number of steps | invariant of the history (homogeneous conditions), induction over reachable states; witness of two partners separated by the active set |
| C75 | time loop with its output conditions (undefined remainder by zero as an outcome), main's argument check | C46's termination theorem (every positive programme ends at the end time), induction over passes; list lemmas |
| C76 | cell and boundary face contributions to the trial right-hand side and lumped matrix, hanging-node weights, division | the assembled right-hand side is balance row plus mass times value plus boundary flux; partition of unity; C13 for the active set; witnesses for the boundary flux and the missing microtraction |
| C77 | grain boundary flags, entries added to the pattern and entries written, both with deal.II's resolution of constraints (contract) | lines of the internal constraints are lines of the Newton constraints with entries removed (for every active set); resolved entries shrink |
| C78 | condensed matrix and vector as weighted sums of local ones, three linear systems, distribution of constraints | weights of a degree of freedom sum to the distributed value; rows of free degrees of freedom are the weak form tested with unit variations; both directions |
| C79 | reduced system with the result of the inner inverse as a vector | block elimination in weak form; two-by-two witness with unbalanced slips |
| C67 | numbering of degrees of freedom of FESystem cells and faces (deal.II contract), component lookup by face index | lists of kinds of degrees of freedom: vertex blocks followed by lines and interiors; prefix argument for the good degrees, explicit index for all others |
| C80 | grain boundary laws as constructed (`Model/DimFace.lean`), face terms of C52 with and without the dimensionless form | homogeneity of openings, branches and tractions; the form is consistent if the laws get their characteristic quantities; witness with stiffness unit 2 |
| C81 | Files as character lists, `std::getline` as splitting at separators, `std::stod` arbitrary; `read_and_store_data`, `count_n_crystals` and the index into the vectors (`Model/Files.lean`). Acceptance iff by induction over the lines and the components; round trip by induction over the rows; three negations with witnesses. |
| C82 | `LoadControl` constructor and `value` (`Model/Traction.lean`); the returned traction computed for all programmes. |
| C83 | Assembly (residual with grain boundary and boundary integrals, `Polycrystal`), all bulk laws, microtraction law, condensed residual | Principle of virtual power for the assembled right-hand side (linear algebra over the sums), convexity of the elastic and the defect energy (tangent inequality), dissipativity of the microstress (C28); condensed residual tested with the increment (C78 lemmas); a run of any length by induction over the steps with the stored history (`EnergyRun`); polycrystals: each face seen by exactly two cells from opposite sides (permutation of the list of views), the two slip forces are the derivative of one convex quadratic energy; opening boundaries (`Decohesion`): within the recorded opening the traction is the secant stiffness times the derivative of half the squared effective opening, which is convex, and stiffness and degradation only decrease; records of the faces evolve over the run as in C21/C22; counterexample for accepted `C1122 > C1111` |
| C84 | Assembly (residual with grain boundary and boundary integrals, `Polycrystal`), all bulk laws, condensed residual | Monotonicity: virtual power of the difference of two solutions is a sum of non-negative terms (elastic energy of the difference, convexity of the defect energy, monotone vector of microstresses for latent hardening parameters up to 1: reduction to increments of one sign, derivative along the segment, (1-s)^2 <= k s' for the five regularisations, Cauchy-Schwarz) that vanishes; violation by an explicit time step with two solutions for the default latent hardening, and for opening grain boundaries (Props/OpeningUnique.lean) by two grains whose softening boundary balances given forces at two openings |
| C85 | `row2`/`row3` list the `add_value` calls; the cell under each title is the named component (`C85_row_*`), the columns are declared and filled at most once, out-of-plane columns empty in 2D, and combined with C56 the cells are volume averages. |
| C86 | `debugValue` sums magnitudes over the crystals at the component offset of the layout; equals the magnitude of the crystal's slip quantity (`C86_magnitude`), the sign is lost (`C86_violated_sign`). |
| C87 | Scratch buffers with checked indices and a fault outcome; `Scratch::reset`, reading of the slips, update of the points; induction over the loops and over the cells of a thread. Safe iff `n_slips <= 3^dim` (`C87_limit`); deal.II's `get_function_values` by its documented contract. |
| C88 | One quadrature point of a face, a private record per process, visits of the owned cells with opening, normal and energies as each cell computes them. Two views by symmetry of the laws, then idempotence of a visit; evolution of the openings independent of the damage. Counterexample: M1 with quadratic degradation, damage 1/4 on one process and 1/2 on two. |
| C89 | Mesh of C84 (cells, opening faces seen from both sides, loaded faces). Strains and openings of a motion field vanish; tractions seen from the two sides cancel on any continuous field; stress is symmetric, so its power on a spin vanishes; reactions by exchanging the sums over cells and degrees of freedom, tolerance by Cauchy-Schwarz. Example: two linear triangles with a grain boundary, weight and a load. |
| C90 | Drivers of C07-C10 with the accumulators of the orders; forgetting them gives back the drivers. Specification of a step as a list of solution loops (passes) with iteration counts; invariant: accumulator = sum of the means of the finished loops. TableHandler as list of columns, writing demands equal lengths. Order: squeeze of log(r')/log r between log C/log r + q and log c/log r + q. |
| C91 | `ParameterHandler` as list of declared entries with patterns and a store; every declare/parse function as a list / an Except program (errors: undeclared, conversion, identifier, range, assertion, abort). Specification: last line of the file for the entry; acceptance condition and parameter records written out by entry names. Compositional `Meets` lemmas; no key is declared twice. Conversion of text to values is deal.II's. |
| C92 | `print_parameters` as the list of all entries with values; reading it gives back the store (keys distinct, values valid). Default store evaluated entry by entry and compared with the constructors. |
| C93 | `Strip.observed`: the record without the members no other source file reads (found by reading the source). Congruence of the specification records in the store outside a list of entries; files extended by one line. |
| C94 | Ranges of the accepted records from patterns and checks; witnesses accepted files. |
| C95 | The three drivers with the lines they write (`Model/NewtonLog.lean`), generic over the operations on the solver's state; the log of a step equals an independently written list (`SpecMonoLines`, `SpecLoops`, `SpecPassLines`) along the attempts / loops / passes; induction with the lines already written as invariant. Columns through the logger model of C59. |
| C96 | `AssertIsFinite` in `update_value` as truncation of the log; violated when a Newton iteration reaches residual zero. |
| C97 | `Model/Newton` writes the operations of the three algorithms out: assembly at a trial solution, exact linear solve, update with constraints, line search, norms, NaN | Elastic assembly is affine and symmetric positive (C97_elastic, from C50/C78); one exact step of an affine system is a solution; block Gauss-Seidel on a convex energy decreases it by the square of the residual, summable, so the tolerance is met; Schur complement step for the embracing algorithm; NaN propagation for the violated cases |
| C98 | `Model/Raise`: the algorithms with every operation `S → Option S`; a stop is an exception or `std::abort` | Trichotomy of the rate-dependent monolithic step by induction; simulation relation with the total algorithms of `Model/Drivers` (failure = norm not a number), so C07–C10 carry over; kind of stop by induction; abort witnesses for every state |
| C99 | `Model/Setup`: objects with their flags, extractors, elements, block ranges and constraints, a heap of shared numberings, calls and their results | An object depends only on the calls on it (induction over histories); flags against the order of the calls; members after the standard order by computation and an invariant for the configuring calls; witnesses for the violated parts |
| C100 | No new model: the models of crystals, cells, faces, grains, runs, trial microstress, active set, reading and output, with a specification of a second description (`Naming`) | Equivariance of every term under permutation and signs, lifted to meshes, Newton steps and runs by reindexing; witnesses for the signed sum in the output and for the active set |
| C101 | No new model: crystals, laws, cells, faces, grains, linear systems, runs, homogenisation and output, with a specification of support points (`Nodes`) and of the turned specimen (`Body.turned`) | Equivariance of every tensor operation, of sums over support points (exchange of components by an involution) and of distribution with constraints, lifted to meshes, Newton systems and runs |
| C102 | `Model/Lifecycle`: the objects with all members that `init` touches (also what a call leaves behind when it throws half way), access functions with throw/undefined outcomes, histories of calls. | Invariants over histories (flag ⇔ some init completed; laws agree with the crystals they saw); explicit state after the init that counts; witnesses for the violations. |
| C103 | existing models of laws, assembly, runs, Newton systems, algorithms, active set and output. | Oddness/evenness of each law, carried through sums, constraints and history by induction over steps; the algorithms by a simulation lemma (corresponding operations give corresponding outcomes). |
| C104 | existing models of laws, assembly, runs, load programme and boundary displacement. | Homogeneity of each law in (rate, regularisation parameter), carried through assembly; histories by induction over steps; times by induction over the passes of the loop. |
| C105 | existing models of histories, laws, assembly and runs. | Update along a one-way path is additive (induction over the replaced steps), hence equal histories, equal microstress and equal residual at the kept states. |
| C106 | existing models instantiated at dimension 2 and 3; extruded meshes are described by a relation between cells, quadrature points, faces and degrees of freedom. | Sums over the product of plane points and heights factor; partition of unity makes fields constant over the height; the residual of level l is that of the plane times the thickness of the level; equivalence of solutions, induction over steps for histories. Existence of the body is proved for every plane body. |
| C107 | existing models of orientation, stiffness, slip systems, cells and faces; a cell is placed in a grain and oriented by it. | Signed permutations leave the cubic tensor invariant (signs occur in pairs); rotated slip systems are a renaming, one per grain (C100 lemmas, redone for two different renamings at a face); residuals correspond, induction over steps for resistances. Closure of the twelve systems under the cube group by exhaustion of the finite group in integers. |
| C108 | Model/Rounded.lean: doubles m*2^e, any rounding to nearest, the path from the input vectors to the range check with every operation rounded. | Error of one operation, then of sums of products (Cauchy-Schwarz), normalisation and rotation; bounds in multiples of 2^-53 against 1e-14. Existence of a rounding proved. Violation in 3D by computing the rounded values of one input, for every tie rule. |
| C109 | Model/RoundedTime.lean: step sizes, end time, advance and skip test of the load programme with every operation rounded. | Induction on the step with the accumulated error; margin of 5% of a step at the end; the fraction test by distance of quotients of 32 bit numbers. |
| C110 | Model/Workstream.lean: both workers statement by statement on scratch and copy objects, the copiers, and WorkStream as a sequence of worker and copier calls. | The workers leave the formulas of the other chapters in the copy object from any buffers (loop invariants); induction on the schedule; commutativity of the sum. |
| C111 | Model/RoundedHistory.lean: the updates of slip resistances (per quadrature point and per degree of freedom) and of damage (Ortiz, M1) with every operation rounded. | Rounding is monotone on doubles, so sums of non-negative terms do not fall; relative errors by induction over slips and steps; (1+x)exp(-x) is Lipschitz with x exp(-x); witnesses for what is lost. |
| C112 | Model/RoundedCrystal.lean with Model/Rounded.lean: reading, orthogonality check, normalisation, rotation matrix, rotation and Schmid tensors with every operation rounded. | Sums of integers are exact; the norm and the quotient have relative error 2^-51; forward error analysis of products and sums of numbers of size at most one. |
| C113 | Model/Assembly.lean, Model/History.lean, Model/Post.lean with the runs of C83. | The residual of uniform fields is the mean strain of the variation times the stress of the point (virtual work, C83); uniqueness from C84 by induction on steps; averages from C56. Example: columns of any number of layers in simple shear. |
| C114 | Model/Dataflow.lean: the six workers as programs on scratch and copy buffers with uninterpreted arithmetic. | Each worker's copy is a function of the cell alone (every entry read was written in this call); with C110's scheduler the total is the fold over the cells. The values are tied to C76's and C54's sums, and an example in doubles shows that another order gives another number. |
| C115 | Model/Assembly.lean, Model/Newton.lean (monolithic loop with line search). | Virtual work of the difference of two states as in C84, then Cauchy-Schwarz; the loop by C07 and C63. Examples: one cell with its slip held, with an explicit stiffness. |
| C116 | Model/Newton.lean, Model/LineSearch.lean (monolithic loop with line search), Model/Assembly.lean (body without hardening). | Newton-Kantorovich: Taylor bound of the residual along a step by the mean value theorem, induction over the iterations, acceptance of the full step by the line search; existence by a Cauchy sequence of Newton iterates. Example: one slip with quadratic resistance, four iterations to 1e-8. |
| C117 | Model/Newton.lean, Model/LineSearch.lean, Model/Assembly.lean, Model/Micro.lean, Model/Condense.lean. | Newton-Kantorovich with an inexact matrix; for a body the error of the prediction is the error of the scalar microstress tested with slips: bounded slopes of the five regularisations, Cauchy-Schwarz over all quadrature points, regularity from the energy estimate C115 by a limit of small steps, solvability by finite dimension. Example: one cell with a displacement and a slip and hardening 1/10. |
| C118 | Model/Assembly.lean, Model/Micro.lean, Model/Crystal.lean, Model/Condense.lean, Model/Newton.lean. | The condensed residual as a map of the free unknowns is monotone (C84, C115), Lipschitz on every ball (explicit formulas of the local assembly) and points outwards far away (the defect stress grows at least like the power, compactness of the unit sphere); zeros of such maps exist by a damped fixed-point iteration and compactness (Props/MonotoneZero.lean). Tolerance: the stored energy of a variation grows at least quadratically outside every ball. Example: one cell with a displacement and a slip under every load. |
| C119 | Model/Assembly.lean, Model/History.lean, Model/Micro.lean; the run of C83 (Props/EnergyRun.lean). | The conditions of C118 are kept by the steps because slip resistances never decrease; existence by recursion over prefixes of the run, uniqueness by induction. Tolerance: residuals are Lipschitz on balls in the whole history (induction over the steps), a state farther away than allowed is pulled back along the segment to the exact one by monotonicity, and there the energy estimate of C118 contradicts the small residual; then induction over the number of steps. Example: one cell under any sequence of loads. |
| C120 | Model/Newton.lean, Model/Drivers.lean, Model/LineSearch.lean, Model/Assembly.lean. | The invariant that the trial solution is admissible (C63) and the norms at the end of C09 and C10 give the Euclidean length of the whole residual, because every unknown is in block 0 or 1; then the energy estimate of C115 and the growth of C118. Example: one cell with displacement and slip in two blocks, from which both algorithms return for every tolerance. |
| C121 | Model/Polycrystal.lean, Model/Face.lean, Model/Interface.lean, Model/Newton.lean, Model/Drivers.lean. | The virtual power of C83 splits the work of the residual into cells (work_gap of C115) and a symmetric nonnegative form of the net Burgers tensors at the faces, so that the map of C118 with grain boundary terms stays monotone, coercive and Lipschitz on balls; its zero solves the step. Uniqueness and closeness follow from the growth of the energy of the grains (C118), the invariants of C120 give what the algorithms return. Example: two grains of different orientation with microtractions at their face. |
| C122 | Model/RoundedOpening.lean: projectors, products, norms, the measured and the recorded opening and the record both cells write to, every operation rounded. | Changing both signs leaves the projectors and the normal component unchanged and changes the sign of the other intermediate results, as rounding is odd; visits of a call are idempotent. |
| C123 | Model/RoundedOpening.lean. | On boundaries along an axis all products are exact and sqrt(x*x) is the modulus of x in double precision (proved), so both formulas agree. Witnesses on oblique boundaries: explicit doubles, each operation located between two neighbouring doubles away from ties. |
| C124 | Model/Condense.lean, Props/EnergyRun.lean, Model/Polycrystal.lean. | A permutation of the degrees of freedom carries the weights of the constraints, the Jacobian, the residual, the meshes of all steps and the distributed vectors to each other; sums over cells are invariant under permutations of the list. C119 and C125 bound the distance of computed runs. Examples: hanging node with two cells in the opposite order; two grains on two processes. |
| C125 | Model/Polycrystal.lean, Model/Face.lean, Model/History.lean. | As C119, with the gap and the local Lipschitz bounds of C121: the residual of a step depends continuously on the history of the preceding states, induction over the steps. Example: two grains with microtractions under arbitrary sequences of loads. |
| C126 | Model/Reported.lean, Model/Interface.lean. | The value left by the visit of a cell, with the uninitialised exponent as a parameter; symmetric under exchange of the cells (C40). Where the maximum is positive, loading and unloading branch give the same traction at the maximum, so the wrong old opening does no harm; witnesses otherwise. |
| C127 | Model/Polycrystal.lean, Model/Condense.lean, Model/History.lean. | Monotonicity of the equations between the computed state and a point near the exact one, shifted by the difference of the boundary values; the rows are locally Lipschitz in history and state and Lipschitz in the loads; induction over the steps. |
| C128 | Model/RoundedOpening.lean. | Error of sums of three products, of square roots under relative and absolute perturbation, Lipschitz continuity of norms; differences of doubles are multiples of the smallest one. |
| C129 | Model/Polycrystal.lean, Model/Face.lean, Model/Interface.lean, Model/Assembly.lean, Model/History.lean. | Rows are continuous (within a step damage and largest opening are frozen, the cohesive traction is continuous in the opening across loading/unloading); the work of the residual grows quadratically because defect, elastic, contact and microtraction parts do not push inwards, the cohesive traction does not push inwards and is bounded, and the slip resistance stays nonnegative; a continuous map that points outwards on a sphere has a zero inside (no retraction theorem, proved by volumes in Props/OutwardZero.lean). |
| C130 | Model/ActiveSet.lean, Model/TrialMicro.lean, Model/Assembly.lean, Model/Micro.lean. | Trial microstress as the solution of the balance with old slips (C76); the row of a slip is a weighted mean of its microstresses, each bounded by the resistance; a two-system witness for the violation. |
| C131 | Model/Micro.lean, Model/Assembly.lean, Model/ActiveSet.lean, Model/TrialMicro.lean. | Solutions of the rate-dependent problems with the regularisation tending to zero, bounded uniformly (C129), converge along an ultrafilter; the limits of the microstresses fulfil the flow rule; a two-system witness for the violation. |
| C132 | Model/Micro.lean, Model/History.lean, Model/Assembly.lean. | Regularised sign loses at most k in power (C26_error); both solutions tested with their difference; hardening is monotone, so the loss bounds the energies; with the resistances of either solution. |
| C133 | Model/Post.lean, Model/Assembly.lean, Model/Crystal.lean. | Balance of the displacement equations tested with the fluctuation (principle of virtual work); major symmetry of the stiffness; energy of the deviation from the uniform strain or the uniform stress is not negative. |
| C134 | Model/Post.lean, Model/Assembly.lean, Model/Crystal.lean. | Virtual work of C133 with any admissible fluctuation; energy of the difference not negative, zero only if the strains agree; comparison of admissible sets. |
| C135 | Model/Assembly.lean, Model/History.lean, Model/Post.lean. | Energy above its tangent with the change of the macroscopic strain as part of the strain increment; power of the assembly with the increment; work of the macroscopic strain is that of the reported stress (C133); induction over the steps. |
| C136 | Model/Assembly.lean, Model/Polycrystal.lean, Model/Damage.lean, Model/Post.lean. | C135 for the grains and the face inequality of C83 (recoverable energy of cohesive zone, contact and microtractions against the assembled face forces, records advanced by the step), summed; induction over the steps; existence from C129 with the macroscopic strain of the step. |
| C137 | Model/Assembly.lean, Model/Polycrystal.lean, Model/Post.lean. | Difference of the two residuals tested with the difference of the states: elastic gap minus macroscopic increment, defect, hardening and grain boundary parts monotone as in C84; Cauchy-Schwarz for the elastic form; the reported stress is that of C133. |

None is excluded as inexpressible; what runtime behaviour is outside the model
(rounding, real data races beyond the step granularity stated, MPI) is said at
the property.
