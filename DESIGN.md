# A formal model of conmech in Lean 4

## Layout

* `properties.jsonl` — the properties (C01, C02, ...), in terms of what a user of conmech observes.
* `lean/Verif/Model/*.lean` — definitions only: a transcription of the Python code, function by
  function. Every definition cites file and lines in `/repo` and says where it simplifies.
* `lean/Verif/Spec/*.lean` — small independent specifications used in the statements.
* `lean/Verif/Lemmas/*.lean` — helper lemmas about the model.
* `lean/Verif/Props/*.lean` — the property theorems, named `Cnn_...`, each followed by an `example`
  exhibiting a concrete non-trivial instance of its hypotheses.
* `seeded/LOG.jsonl` — record of the wrong programs the theorems were tested against.
* `MANIFEST.json` — property → theorem names and status.

## Trusted base

* Lean 4.33.0's kernel, and Mathlib 4.33.0 definitions appearing in statements.
* Axioms: at most `propext`, `Classical.choice`, `Quot.sound` (checked with `#print axioms`).
  No own axioms, no `sorry`, no `native_decide`, no `bv_decide`.
* The transcription Python → Lean itself. Nothing checks it mechanically; that is why each model
  definition carries the lines it comes from.

## Modelling conventions

* Floating point numbers are replaced by elements of an arbitrary (linearly ordered) field, or ℝ
  where a square root is needed. Rounding, overflow and NaN are not modelled, except where a property
  is about control flow for arbitrary comparison results (C40).
* numpy arrays of nodes/elements are `List`s; flat vectors and matrices are functions on `ℕ` (or
  `ℕ × ℕ`) together with an explicit length, so that the index arithmetic
  `coordinate * nodes_count + node` of the code is visible and is proved about, not assumed.
* In-place mutation is modelled by state passing. Where aliasing matters (copies of states) a small
  heap is modelled.
* Exceptions are values (`Except`/`Option`).
* User supplied functions (predicates, sources, contact laws, relaxation, numerical backends such as
  `scipy.optimize`, `numpy.linalg.solve`, `brentq`) are parameters, universally quantified; where a
  backend contract is needed it is an explicit hypothesis.
* numba's `njit`, pickling format, plotting, gmsh/pygmsh/dmsh/meshzoo mesh generators and progress bars
  are not modelled.

## What is modelled

| Python | Lean model | left out |
|--------|------------|----------|
| `mesh/mesh.py` | `Mesh`, `MeshIndices` | printing |
| `mesh/boundaries_factory.py`, `mesh/boundaries.py`, `mesh/boundary.py`, `mesh/boundaries_description.py` | `BoundariesFactory`, `BoundaryIndices`, `Normals`, `DirichletNames`, `Dirichlet` | numpy's sorting algorithm (`np.unique` by its documented result) |
| `mesh/zoo/cross_for_tests.py`, `mesh/mesh_builders.py`, `mesh/zoo/pygmsh/_utils.py` | `MeshZoo` | meshes from external generators |
| `mesh/zoo/cube.py`, `mesh/zoo/ball.py` | `HardcodedMeshes` | |
| `mesh/mesh.py` (seeds, extent, centring), `properties/mesh_description.py` (imported meshes) | `MeshGeometry` | meshio's reading of files |
| `helpers/nph.py` (layouts) | `Layout` | functions used only for plots |
| `helpers/config.py` | `Config` | permissions, links |
| `struct/stiffness_matrix.py` | `Operators` | broadcasting, arrays on the left of an operator |
| `dynamics/factory/*` | `Assembly`, `Simulations` | |
| `dynamics/dynamics.py` (relaxation cache), `scene/body_forces.py` | `BodyForces`, `Sources` | |
| `dynamics/statement.py` | `Statement`, `Dirichlet` | |
| `dynamics/contact/*` | `ContactLaws` | |
| `solvers/solver.py`, `solvers/direct.py`, `solvers/_solvers.py` | `Solvers`, `Registry`, `Dirichlet`, `DirectStep` | root finder and linear solver of the direct method: any functions that meet their contracts |
| `solvers/solver_methods.py` | `Cost` | |
| `solvers/optimization/schur_complement.py`, `global_optimization.py` | `Schur`, `Solvers` | numerical minimisation: any function |
| `solvers/optimization/optimization.py` | `Cost`, `Minimise`, `OptimisedStep`, `Constrained` | numerical minimisation, measured times |
| `simulations/problem_solver.py` | `Running`, `Simulations` | progress bars, measured times |
| `scenarios/problems.py` | `Problems`, `Simulations`, `Sources` | |
| `properties/body_properties.py` | `Simulations` | obstacle properties |
| `state/state.py`, `state/products/*` | `State`, `StateHeap`, `Products`, `Sections` | pickle's byte format, matplotlib's interpolation |
| `plotting/membrane.py` (limit points, columns, calls), `plotting/drawer.py` (limits, edges, arrows) | `Plotting` | everything that matplotlib and networkx do, colours, sizes, the grid of `do_plot` |
| `examples/utils.py` (recovered gradients and stresses) | `Recovery` | |
| `examples/*.py` (contact laws) | `ExampleLaws` | plots |
| `examples/example_manufactured_solution.py`, `examples/error_estimates.py`, `_relative_temperature_error` | `Manufactured` | interpolation between different meshes |
| `draw_convergence_plots` in `examples/BartmanSzwarc_Ochal_Tarzia_2026.py` | `ConvergenceTable` | rounding of printed numbers, drawing |
| `examples/*.py` (results kept in files, tables of losses) | `SavedResults` | plots, pickle's byte format |

Inputs on which the Python code would fail or wrap around silently (negative indices, too short arrays)
either end in an explicit error value of the model or are excluded by hypotheses that say so.

## Plan per property

| id | modelled | how it is proved |
|----|----------|------------------|
| C01, C02 | `remove_unconnected_nodes_numba`, the while loop with in-place decrement | loop invariant, refinement to "filter used nodes, rank numbers" |
| C03 | `get_edges_matrix`, `get_edges_list_numba` | fold invariant; iff characterisation |
| C04 | `reorder_numba` with the negative encoding | loop invariant on the encoded array; bijection |
| C05, C06 | `reorder_boundary_nodes` (four reorders) | composition of C04; overlap counterexample |
| C07, C08 | `identify_surfaces_numba`, `np.unique`, `extract_unique_*`, classification | characterisation of unique/counts |
| C09 | index ranges of `Mesh` | arithmetic on counts, negation with witness |
| C10 | normals in 2D and 3D, pairing of lists | real algebra; counterexample on a two-triangle square |
| C11 | `get_all_boundary_indices`, range and list case | induction over the list of runs |
| C12–C14 | `apply_dirichlet_condition` | algebra with finite sums; induction over blocks |
| C15 | `find_dirichlet_conditions` | generator as recursion over names |
| C16 | `Solver.solve` | for arbitrary backend result |
| C17 | `stack_column`, `unstack`, reshapes | index arithmetic |
| C18–C20 | Schur complement with the split/moveaxis/reshape index arithmetic | block linear algebra; energy identity; stale matrices over a run |
| C21–C25 | 2D and 3D local integrals and assembly | field algebra per element, fold over elements |
| C26–C29 | operators built from W, V | quadratic forms, kernel; counterexample in 3D |
| C30–C32 | force integration and cache | sums over elements; state machine |
| C33 | relaxation cache | state machine |
| C34, C35 | all statements | algebraic equivalence; class resolution (C3 linearisation) |
| C36–C41, C60 | `run`, `solve`, `find_solution_uzawa` | induction on steps, state machines |
| C42–C44 | `State` | state machines with heap |
| C45, C46, C58 | registry, dispatch, constructors | induction over registrations; exceptions as values |
| C47–C49 | contact laws, cost, subgradient, direct equation | real analysis / algebra per edge, fold over edges |
| C50, C51, C57 | products | list lemmas, loop induction |
| C52–C54 | mesh zoo | induction on loops; finite table (decide over the whole table) |
| C55 | operators with references to arrays, programs of assignments | invariant over programs; arithmetic per entry |
| C56, C68 | configuration, paths, file system | case analysis; uniqueness of decimal representation |
| C59 | Dirichlet conditions of all statements | case analysis; the translation in the third coordinate is allowed by all supports (`upwards_free`) |
| C61–C63 | histories of solvers, resolution of problem classes | state machines, C3 linearisation over the whole class table |
| C64, C65, C67 | contact laws with static displacement, damping, scalar problems | real analysis; counterexamples |
| C66 | Schur complement against the global method | minimality transfers along the energy identity |
| C69 | ball mesh | whole table in the kernel; linear functions that separate any two tetrahedra (`Props/BallDisjoint.lean`) |
| C70 | size of elements of the cross mesh | geometry of a cell |
| C71 | energy of simulations | balance of one implicit step; relation carried through `solve`; waves on tetrahedral meshes `C71_wave_space` |
| C72 | momentum of simulations | test the equations with a rigid motion |
| C73 | equilibria | the work of one step from rest is a sum of squares |
| C74 | unique solvability | injective square systems; strain-free triangles with two fixed vertices; waves and Poisson problems on tetrahedral meshes `C74_scalar3` |
| C75 | `StaticSolver.solve`, `PoissonSolver.solve` | the held system is never touched; C12 |
| C76, C77 | choice of the minimiser, its options, the constraint | case analysis on prefixes of strings; induction over calls; index arithmetic |
| C78 | constructors of simulations, `get_dynamics` | case analysis on classes; a system depends only on the operators it reads |
| C79 | calls of sources, shapes of loads | index arithmetic |
| C80 | documented method names | the history of registrations (C45) |
| C81 | `plot_limit_points` | invariant of the buffer |
| C82, C83 | `Drawer`, `plot_in_columns`, `plot` | minima of lists; case analysis |
| C84 | samples of vertical sections | floors and linspace |
| C85 | dictionary of products | last assignment wins |
| C86 | assembly, static solvers | area vectors of a common face cancel; sum over faces |
| C87 | cross mesh and boundary search | counting faces in units of half a cell |
| C88 | functional for interior contact, damped law | derivative of the functional at a minimiser |
| C89 | cost functional, systems of the statements | coercive plus convex; variational inequality; in space (`C89_space`) with the definiteness of C120 |
| C90 | assembly, elasticity, Poisson | similarity of shape gradients; invariance of sums |
| C91 | `examples/utils.py` | accumulation over elements; uniqueness of gradients |
| C92 | seeds, extent, centring in `mesh/mesh.py` | invariant of the search |
| C93 | `ImportedMeshDescription.build` | counting; polynomial identities |
| C94 | `find_solution_uzawa`, `TemperatureTimeDependentSolver.solve`, `TemperatureStatement` | invariant of the run, summation by parts |
| C95 | `PiezoelectricTimeDependentSolver.solve`, `PiezoelectricStatement` | invariant of the run, kernels of the operators |
| C96 | the laws of `examples/*.py`: composite, delamination, heat exchange, bounded and exponential ones | telescoping sums over the levels, derivatives of pieces that fit |
| C97 | `solution`, `inner_forces`, `outer_forces`, `calculate_l2_errors`, `_relative_temperature_error`, `compare` | derivatives of polynomials, mass form of C23 |
| C98 | `StaticPoissonStatement`, `TemperatureStatement` and their solvers on triangular meshes, `cross_for_tests.py` | truncation of a field at a bound, element by element; products of gradients written with the angles |
| C99 | displacement returned by `StaticSolver.solve`, temperature returned by `PoissonSolver.solve` | `Spec.BalancedField` (values on the supports, balance elsewhere) from C75; bilinear identities; uniqueness from C74; rigid motions from C26 |
| C100 | files and drawings of the examples that keep results | `Model/SavedResults.lean`: a directory is a function from names to results, a run gives the new directory, the parameters simulated and the results shown; induction over histories of runs with `Spec.Honest`; names are compared as strings |
| C101 | contact problems of supported bodies | `Spec/Reactions.lean`: fields of least energy among those with the prescribed values, forces of the contact pressures at the nodes; the eliminated energy is the original one plus unit springs at the supports (`C101_springs`); the balance follows from the derivative of the cost (C49), the reactions from rigid motions (C72, C99) |
| C102 | sides of a generated rectangle | `Spec/Sides.lean`: sides, their equal parts, predicates that choose sides or parts of sides; `Lemmas/Sides.lean` lists the boundary faces of the cross mesh (`outer_of_boundaryFace`, `boundaryFace_outer`), the renumbering is a bijection of faces; sums by comparing lists with the same contents; total load by C30, C31 and the area of the tiling (C52) |
| C103 | second responses of nonmonotone laws | `Spec.fallUntil`, `Spec.SplitsOn`; response and second response as sums of jumps and changes between levels (`Layers.along`) |
| C104 | refined meshes and the work of loads | `Spec.Refines`, `Spec.SameFunction`, `Spec.Carries`; energy of nested discrete spaces (`C104_nested`), fine fields on halved grids (`fineValue`), held nodes spread over the grid (`Spreads.all`) |
| C105 | time steps against motions in continuous time | `Spec.Motion`, `Spec.Balanced`, `Spec.energyDistance`, `Spec.SmoothContact`; contraction of one implicit step in the energy norm (`distance_step`), remainder of one step (`backward_difference`), global existence for Lipschitz equations (`ode_global`), inverse of the mass matrix outside of the supports (`exists_inverse`); in space without contact `C105_space`, `C105_wave_space` |
| C106 | quasistatic time steps against quasistatic motions | `Spec.Creep`, `Spec.strainDistance`; one step loses at most the remainder in the norm of the stored energy while viscosity absorbs the delayed loads (`creep_step`); velocities as minimisers (`exists_velocity`), so that motions exist for every convex contact potential |
| C107 | time-dependent problems with constant loads against the static problem | `Spec.LoadsBalanced`, `Spec.DampingRates`; a functional of displacement and velocity that decreases in every step (`restFunctional`, `settling_step`), equality of forces for smooth contact (`balanced_forces`), constants from definiteness (`exists_dampingRates`) |
| C108 | assembled matrices against Lebesgue integrals over the body | `Spec.triangle`, `Spec.body`, `Spec.Interpolates`, `Spec.partialDeriv`; change of variables from the reference triangle (`integral_triangle`), triangles overlap in a null set (`integral_body_pieces`), nodes and area fix the body of a generated rectangle (`C108_rectangle_partial`) |
| C109 | computed temperatures against exact solutions of the boundary value problem | `Spec.Flow` (divergence inside, outer normals on the boundary), Green's formula on every triangle summed over the mesh (`Spec.Flow.weak`), best approximation (`C109_best`), affine interpolation error by Rolle's theorem on the edges (`interpolation_gradient`), `Spec.RectangleFlow` and the normals of the sides of generated rectangles (`Generated.flow`) |
| C110 | computed static displacements against exact solutions of the equations of elasticity | `Spec.stressOf`, `Spec.gradientError`, the same route with `Flow` for each row of the stress (`C110_best`, `C110_estimate`, `C110_rectangle_partial`) |
| C111 | contact steps of bodies whose supports touch the contact surfaces | `Model/OptimisedStep.lean`: `solve` of the optimising solvers with an external minimiser; `Spec/ContactSteps.lean`: where supports may lie, the contact problem of a state; the condensed cost is the full one with the supports in place (`condensed_cost`), minimality transfers by C19 and the springs of C101; the condensed matrices stay current because the left side does not change (`iterate_condensed`); runs are equal to those of a solver that balances in every call (`outputs_same`) |
| C112 | independence of the method and the optimiser | `Spec/SolverIndependence.lean`: equal motions, the problem of a step; each step with either method has the least energy (`C112_step`), such a field is unique and depends on the nodes' displacements and velocities only (`C112_unique`), two runs side by side (`outputs_pair`) |
| C113 | equilibrium found by the direct method | `Model/DirectStep.lean`, `Spec/DirectStep.lean`: pressures on segments, contracts of root finder and linear solver; the contact part of the equation are forces shared by the ends of each segment (`contactPart_eq`), roots after elimination of supports (`C113_found`), least energy by convexity (`C113_equilibrium`), two nodes on an obstacle as witness |
| C114 | rigid limit of stiff obstacles, walls of given temperature | `Model/Constrained.lean` (method "constrained" in `solve`), `Spec/StiffLimit.lean`: fields of least energy under a constraint, laws that attract or repel, friction, contract of the constrained minimiser; `Lemmas/Penalty.lean`: penalty estimates, a multiplier from a motion that lifts the body off, existence; `Lemmas/Least.lean`: least energy before and after elimination and condensation under constraints; rates at the level of fields (`C114_obstacle`, `C114_level`), laws of the examples (`C114_foundation`, `C114_heat_exchange`, `C114_linear`, `C114_friction`), what the solvers return (`C114_found`, `C114_found_constrained`), runs (`C114_rigid_partial`, `C114_temperature`, `C114_returns`, `C114_temperature_returns`), violated for gaps and other normals (`C114_constraint_wrong`) |
| C115 | history of displacements of bodies with relaxation | `Spec/Relaxing.lean`: histories in continuous time with long memory (`Relaxing`) and with fading memory (`Fading`), laws that act at once (`Instantaneous`); `Lemmas/Relaxing.lean`: the memory moves like a quasistatic motion, forces determine displacements; existence and uniqueness (`C115_exists`, `C115_unique`), one step (`C115_step`), runs (`C115_converges_partial`, `C115_runs`), bodies on triangular meshes (`C115_body_partial`), violated for tensors that depend on time (`C115_memory_wrong`); times of the states (`C36_relaxation`) |
| C116 | thermoelastic runs | `Spec/Thermoelastic.lean`: bodies, motions, passes and coupling; `Lemmas/Monotone.lean`: strongly monotone equations have solutions; `Lemmas/Thermoelastic.lean`, `Lemmas/ThermalBlock.lean`, `Lemmas/ThermalMotion.lean`, `Lemmas/ThermalStep.lean`: passes contract, both fields as one motion, error of one step; motions (`C116_contraction`, `C116_unique`, `C116_exists`), coupled steps (`C116_together`, `C116_together_unique`), passes (`C116_step`), coupling (`C116_short`, `C116_coupling`), runs (`C116_converges`, `C116_runs`), bodies on triangular meshes (`C116_body`, `C116_solver`) |
| C117 | quasistatic piezoelectric runs | `Spec/Piezoelectric.lean`: bodies, motions, passes and coupling; `Lemmas/Piezoelectric.lean`: the body together with its electric field as a stiffer body; `Lemmas/PiezoStep.lean`, `Lemmas/PiezoError.lean`: passes contract, error of one step; motions (`C117_contraction`, `C117_unique`, `C117_exists`), coupled steps (`C117_together`, `C117_together_unique`), passes (`C117_step`), coupling (`C117_short`, `C117_coupling`), runs (`C117_converges`, `C117_runs`), bodies on triangular meshes (`C117_body`, `C117_solver`) |
| C118 | coupled runs with the solvers as they are | `Props/CoupledMethods.lean`: one call for a field on whose boundary nothing is exchanged (`C118_scalar_solve`), runs are those of solvers that balance the forces in every call (`C118_balanced`); `Props/CoupledBodies.lean`: runs follow the motions of C116 and C117 (`C118_thermoelastic`, `C118_piezoelectric`); `Props/CoupledIndependence.lean`: two runs side by side (`C118_methods`, `C118_thermoelastic_methods`, `C118_piezoelectric_methods`) |
| C119 | `compute_rates`, the table and the plots of `draw_convergence_plots` | logarithms; `IsOrder`: errors proportional to a power of the mesh size |
| C120 | `Space.constitutive`, `getDynamics`, the static solvers | `HeldInSpace`: nodes reached through tetrahedra with three held nodes; `UnboundedBelow` |
| C121 | free oscillations: `timeDependentSolve`, `waveSolve`, one step of the dynamic and wave statements | `Spec.ModeOf`, `Spec.oscillatorStep`; uniqueness of one step (`modes_step`); spectral theorem for the elastic form with the inner product of the mass (`exists_modes`) |
| C122 | creep: `timeDependentSolve`, one step of the quasistatic statement | `Spec.ModeOf` with viscous in place of inertial forces; `quasistatic_step_rows`; `exists_modes` |
| C123 | heat conduction: `CoupledEngine.solve`, the temperature part of every step | `Spec.ModeOf` with heat capacity and conductivity; `heat_step_rows`, `decay_step`, `exists_modes`; steady temperature by `C74_definite`, insulated bodies by orthogonality to constants |
| C124 | `TimeDependentSolver.solve` for dynamic and quasistatic elasticity, `WaveSolver.solve`, `StaticSolver.solve`, `PoissonSolver.solve`, `BodyForces.integrate`, `calculate_constitutive_matrices`, `calculate_acceleration` | `Spec.CarriesFields`, `Spec.SameForm`, `Spec.SameWork`: a linear map between the fields of two bodies; weak form of a step and uniqueness by definiteness, two runs side by side (`outputs_pair`), rotations by C90, renumbering by permuting sums |
| C125 | `TimeDependentSolver.solve` for dynamic and quasistatic elasticity, `StaticSolver.solve`, `calculate_constitutive_matrices`, `calculate_acceleration`, `BodyForces.integrate` | `Spec.UnitChange`: factors of lengths, times and masses and those derived from them; one step in both units solves the same system, two runs side by side (`outputs_pair`), scaling of the matrices by C90 |

Properties of the list which the code violates are proved in two parts: the strongest statement
that is true (suffix `_partial`) and the negation of the full statement on a concrete witness.
They are listed under "Findings" below.

## Findings

Properties that a user would expect and the code does not have. Each entry names the theorem that proves
the failure (in most cases for all inputs of a class, in some on a concrete witness).

Meshes and boundaries
* C06, C09: a node that satisfies the predicates of contact and Neumann (or of two other kinds) is counted
  twice, so that ranges of node numbers overlap (`C06_contact_range_overlap_wrong`,
  `C09_partition_overlap_wrong`). The contact range then has exactly as many wrong nodes as there are nodes
  with both predicates and the Neumann range misses as many (`C06_surplus`), it is right only without such
  nodes (`C06_contact_range_iff`), and it is wrong on every generated rectangle with both predicates at a
  corner (`C06_rectangle_wrong`). `free_nodes_count` and `boundary_indices` are wrong with Dirichlet nodes
  (`C09_free_count_wrong`, `C09_boundary_range_wrong`).
* C10: normals are computed in the order of discovery and used in the order of kinds
  (`C10_zero_normal_wrong`).
* C14, C15: overlapping Dirichlet boundaries with different values (`C14_conflict_wrong`); numbered
  boundaries are ignored under the default name, and an empty one hides later ones
  (`C15_default_numbered_ignored_wrong`, `C15_empty_hides_later_wrong`).
* C52, C70: fine cross meshes get wrong elements because nodes are searched with an absolute tolerance
  (`C52_fine_wrong`); `max_element_perimeter` bounds sides, not perimeters (`C70_perimeter_wrong`).

Operators and statements
* C120: for `λ > μ` (as in the piezoelectric examples with 45 and 105) a column clamped at its base gains
  energy when its upper part is turned, if it is higher than `(5 μ + λ) / (6 (λ - μ))` times its thickness;
  there is no displacement of least energy then (`C120_column_wrong`, `C120_unstable_wrong`). The resistance
  to shearing depends on the direction: `λ` for horizontal layers, nothing for `λ = 0`, and `μ` for lifting
  (`C120_shear_wrong`). For `0 < λ ≤ μ` the claims hold.
* C72: in space rotations of a free body meet elastic forces unless `μ = λ` (`C72_rotation_wrong`), so the
  angular momentum is not kept; the momentum in the direction of translations is (`C72_space_partial`).
* C27: the elasticity matrix has the two Lamé coefficients mixed up in its off-diagonal blocks: rotations
  have energy unless they are equal (`C27_rotation_wrong`).
* C29: reassembly fails for tetrahedra (`C29_three_dim_wrong`).
* C32, C33: caches keyed by the time only (`C32_clear_wrong`, `C32_source_wrong`, `C32_nodes_wrong`,
  `C33_reassembly_wrong`).
* C35: two statements have opposite sign conventions, and the dynamic piezoelectric problem is not coupled
  (`C35_opposite_signs_wrong`, `C35_dynamic_uncoupled_wrong`).
* C55: in-place operators return nothing, there is no subtraction (`C55_inplace_wrong`,
  `C55_difference_wrong`).
* C59: in space the third coordinate of time-dependent Dirichlet conditions is not imposed
  (`C59_three_dim_wrong`). Hence a clamped body falls like a free one in dynamic problems and no displacement
  balances a load with a third component (`C59_falls_wrong`), and all systems of quasistatic problems in space
  are singular (`C59_quasistatic_wrong`).
* C78: piezoelectric bodies have density 0.1 instead of 1 (`C78_density_wrong`); relaxation and
  piezoelectric problems cannot be simulated in space (`C78_space_wrong`); `TimeDependentSolver` fails for
  most of the classes of its signature (`C78_annotation_wrong`).
* C79: the default forces take the time by name only and are called with it by position: problems that keep
  them fail (`C79_forces_wrong`). The default temperatures of Poisson problems return a value per
  coordinate (`C79_temperature_wrong`), forces with a value per coordinate do not fit the wave equation
  (`C79_wave_wrong`).

Solvers
* C18: the merge of condensed and free values is wrong in three dimensions (`C18_three_dim_wrong`).
* C20: with relaxation the condensed matrix is stale (`C20_relaxation_wrong`).
* C46, C58: the registered global solver for relaxation fails always, and only the direct solver can be
  made without a contact law (`C46_relaxed_global_wrong`, `C58_optimization_wrong`,
  `C58_registered_wrong`).
* C60, C61: the direct solver keeps the force and the system of its first step (`C60_direct_wrong`,
  `C61_direct_wrong`, `C61_direct_stale_wrong`).
* C76: coupled problems drop `method`, `maxiter` and `tol` (`C76_coupled_wrong`); the discontinuous gradient
  method has a fixed limit, Adam a hundred times the given one (`C76_limit_wrong`); the default limit is
  1000 or 2000 whatever the number of unknowns (`C76_default_limit_wrong`); `"Gradiented BFGS"` is not
  recognised (`C76_gradiented_wrong`).
* C80: the method called "optimization" in the documentation exists for no problem, "direct" for no
  quasistatic one (`C80_optimization_wrong`, `C80_direct_wrong`).
* C77: the constrained method constrains the second half of the vector: other nodes for scalar problems,
  other coordinates in space (`C77_scalar_wrong`, `C77_space_wrong`, `C77_no_contact_wrong`).
* C66: a Dirichlet node on a contact surface enters the cost of the two methods with different values
  (`C66_dirichlet_wrong`).

Contact
* C48: in space the weight of a contact surface is not its area (`C48_three_dim_wrong`).
* C49: the subgradient is not a derivative of the cost when the law has different slopes at the two nodes of
  a segment, and scalar problems get the subgradient of vector fields (`C49_segment_wrong`,
  `C49_scalar_wrong`).
* C64, C65, C67: laws of the static displacement (`C64_derivative_wrong`, `C64_static_wrong`), the damped
  law (`C65_jump_wrong`, `C65_bounded_wrong`), scalar problems (`C67_negative_side_wrong`).
* C88: interior contact acts with half the derivative of the law (`C88_half_wrong`), and with the damped law
  the reaction does not depend on the penetration (`C88_depth_wrong`).
* C90: the elastic energy in space changes when the body and its displacement are turned by a right angle,
  whenever the two coefficients differ (`C90_rotation3_wrong`); the cause is that of C27.
* C91: `calculate_dx_dy` of the examples returns minus the gradient, so that tension is drawn as compression
  (`C91_gradient_wrong`, `C91_sign_wrong`); the relaxation stress uses one component of the tensor and misses
  the bulk part (`C91_bulk_wrong`).
* C92: the search for seeds starts with the error 1, so on meshes whose nodes are farther apart it returns the
  first node twice (`C92_far_wrong`, `C92_scaled_wrong`).
* C93: imported surfaces in space are projected to the plane and quadrilaterals are left out, both without an
  error (`C93_area_wrong`, `C93_mixed_wrong`).
* C94: ten passes between temperature and motion are made at most and their result is returned even if they
  diverge: with a strong coupling one step without loads multiplies the energy (`C94_energy_wrong`).
* C15: the heat equation shares the name `dirichlet` with the displacement, so that clamped boundaries always
  have a prescribed temperature and no others can have one (`C15_temperature_wrong`).
* C96: the declared subderivative of the heat exchange law is half the derivative of its potential
  (`C96_heat_exchange_wrong`), that of the delamination law has the opposite sign (`C96_delamination_wrong`), a
  composite with one level cannot be evaluated (`C96_single_level_wrong`), and the friction law of
  `Jureczka_Ochal_Bartman_2023.py` is negative at rest, so that a body at rest gains from penetration
  (`C96_friction_at_rest_wrong`).
* C97: nodal errors are drawn too large by the factor √3 (`C97_nodal_wrong`), the relative temperature error is
  absolute (`C97_relative_wrong`), and the comparison of states can be zero for different states
  (`C97_compare_wrong`).
* C119: the second column of errors is not measured from the reference named in the caption of the table
  (`C119_caption_wrong`), and the rates are larger than the order of the method (`C119_reference`).
* C98: the bounds hold on meshes without obtuse angles only; a cross mesh with rectangular, non-square cells has
  obtuse angles (`C98_generated`), and on an obtuse mesh a node gets colder than all prescribed values
  (`C98_obtuse_wrong`). Because the code uses the consistent mass matrix, the unit square of two triangles cools
  below its coldest point for every time step below 1/12 (`C98_short_step_wrong`); meshes with a right angle never
  meet `LongEnough`.
* C99: in space the moments of the reactions do not balance those of the loads unless μ = λ
  (`C99_moment_wrong`); this is another consequence of the swapped coefficients found in C27.
* C100: files are named with three digits of the force (`C100_force_names_wrong`, `C100_sweep_wrong`); the
  starting point of the subgradient method depends on which files there are (`C100_start_wrong`); the table of
  losses is overwritten with the newly simulated pairs only (`C100_losses_wrong`). The penetration example loads
  the start of the next simulation into the variable `state` that it is about to save, so that with a gap in the
  files a value gets the state of another one (`C100_penetration_wrong`), and files of a test run on the coarse
  mesh are taken for those of a full run (`C100_penetration_test_wrong`). `BOSK_2024.py` saves states under
  their index 0 to 3 and looks for them under their time step: from four steps on files are never found
  (`C100_wave_partial`), below they are mixed up (`C100_wave_wrong`). A time rounded down is saved under the
  step before (`C100_times_wrong`); the time steps 1/128 and 1/16 of the examples are exact.
* C101: `apply_dirichlet_condition` replaces the equations of the supports by unit ones, but the optimising
  solvers add the contact cost of the same unknowns. Where a contact surface has a node on a support (the corner
  shared by `y == 0` and `x == 0` in most examples), the support is a spring of stiffness one during the
  minimisation and gives way by the contact force (`C101_supports_wrong`); afterwards it is put back in its
  place, so that what is returned is neither of least energy nor in balance with its own contact forces
  (`C101_support_wrong`). Without such nodes everything holds (`C101_held_partial`, `C101_static_partial`).
* C102: surfaces are put into classes by their middle but nodes by their own position, so on a part of a side that
  is shorter than half a cell the program finds a contact node and no contact surface (`C102_part_wrong`);
  a force or contact on a part of a side acts on a length that is wrong by up to one cell (`C102_part_partial`).
* C103: where a response jumps down, the second response counts the jump on the other side than the response:
  at the levels of a composite material the sum of both jumps up and down again (`C103_composite_wrong`), for the
  delamination law it has a hole at half a millimetre (`C103_delamination_wrong`). Only plots show this.
* C104: halving the `max_element_perimeter` of a `CrossMesh` gives a nested mesh only if it doubles the numbers of cells in
  both directions, for instance if the sides are multiples of the length. A square of side 6/5 has two cells per
  side for the length 1 and three for 1/2, and nodes of the coarse mesh are lost (`C104_nested_wrong`), so the
  theorem does not order the results of such a halving.
* C105: the statements evaluate the loads at the time of the previous step while all other forces are taken at the new
  one. The order of convergence is not affected, but the bound contains the rate of change of the loads for this reason.
  The initial velocity must vanish on the supports; otherwise no motion starts from it (it jumps in the first step).
* C106: the initial velocity passed to `solve` of a quasistatic problem has no influence on the states returned except
  the initial one; only the initial displacement matters. The loads are delayed by one step as in C105.
* C107: in time-dependent problems the contact law is evaluated at velocities, so that a body at rest exerts no force
  on the obstacle. The state of rest is the solution of the static problem without contact, and penetrates the obstacle
  if that solution does; contact only delays how it is reached.
* C108: body forces which vary over an element are not integrated exactly. The weights `volume_at_nodes` leave out the
  force at the node itself, so that the work of a nonconstant force on itself is always smaller than its integral, by
  one twelfth of the area times the squares of the differences (`C108_forces_wrong`). Forces which are constant on each
  element are integrated exactly (`C108_forces_partial`).
* C109, C110: the estimates hold down to elements of twice the tolerance `1e-4` with which `CrossMesh` compares
  nodes; below it the generated mesh is wrong (C52), so the error cannot be made arbitrarily small by refining the mesh.

Runs and states
* C111: the condensed method reads the values at supported ends of contact surfaces from `v_vector`. This is
  right in problems in velocities, once the initial velocities are the prescribed ones (`C111_start`); with
  other initial velocities the first step is wrong there. In temperature and potential problems an entry of
  the velocities is taken for the temperature (`C111_scalar_wrong`).
* C112: the Schur complement and the global method return different velocities if a support touches a contact
  surface (`C112_supports_wrong`); otherwise all methods and optimisers give the same run (`C112_methods_partial`).
* C113: the direct method shares the contact force of a segment equally between its nodes. The moment of the
  pressures is lost (`C113_moment_wrong`), and the result does not have the least energy (`C113_end_wrong`). The
  equation may have no root or several (`C113_none_wrong`, `C113_several_wrong`). Friction, bounds, displacement and
  time step are ignored (`C113_arguments_wrong`). Laws with a general contact condition and bodies in space raise
  (`C113_general_wrong`, `C113_space_wrong`), and so do laws with a number as subderivative (`C113_number_wrong`).
* C114: the method "constrained" constrains the second coordinate of the contact nodes to be at least zero. It knows
  neither `GAP` of `BartmanSzwarc_Ochal_Sofonea_Tarzia_2025.py` nor the normals: with a gap, or an obstacle that is not
  below the body, its result is not the limit of the runs with stiffer and stiffer laws (`C114_constraint_wrong`).
  In the example the gap is zero and the obstacle is below, so that the comparison is right (`C114_rigid_partial`).
* C115: a relaxation tensor that depends on time is evaluated at the present time and applied to the integral of the
  whole past, instead of being applied to each past displacement according to its age. Under a constant load a body
  whose relaxation fades like `exp(-t)` must go down to half of its elastic displacement; the states returned after
  time 5 have at least three quarters of it (`C115_memory_wrong`). The examples use tensors that do not depend on time, for
  which the runs converge (`C115_body_partial`).
* C116: nothing in `find_solution_uzawa` guarantees that its passes approach the step in which both fields are found
  together. They do if the coupling in a time step is weak (`C116_step`), which holds for short steps (`C116_short`) and, on
  every mesh and for every step, if the squares of the expansion coefficients add up to at most `2 ρ μ` (`C116_coupling`;
  0.5 against 8 in `examples/example_temperature_dynamic.py`). For a strong coupling the energy of a run may grow
  (`C94_energy_wrong`), and no error is reported. However strong the coupling is, the runs converge to the motion as the
  time step goes to zero (`C116_converges`).
* C117: the initial potential of `examples/example_piezo_quasistatic.py` is zero, also on the electrodes, where 20 is
  prescribed. The first returned state keeps it; later states do not depend on it beyond the error of one step
  (`C117_converges`).
* C37: decreasing output steps (`C37_unsorted_wrong`).
* C38, C39: a second run keeps the clock of the first, and a state with products cannot be continued
  (`C38_first_step_wrong`, `C38_twice_wrong`, `C38_coupled_wrong`, `C39_products_wrong`).
* C41, C42: displaced nodes of the initial state, stale stress (`C41_initial_wrong`, `C42_stale_wrong`).
* C43, C44: arrays shared by states, incomplete copies, loss of data if saving fails (`C43_*_wrong`,
  `C44_failure_wrong`, `C44_retry_wrong`).
* C51: zeros behind the last point of the scan are missed (`C51_tail_wrong`).
* C68: all configurations of a process share the default output directory (`C68_shared_wrong`).

Results and plots
* C81: when the points of some first times are exactly 1000, a plot of limit points shows 100 additional
  points at the origin (`C81_origin_wrong`), and otherwise it fails beyond 1100 points
  (`C81_overflow_wrong`).
* C82: limits and arrows stay those of the first drawing (`C82_later_wrong`, `C82_forces_wrong`); only two
  of the fixed nodes get arrows, and fewer than two make the drawing fail (`C82_dirichlet_wrong`).
* C83: `plot` always fails (`C83_plot_wrong`), `plot_in_columns` fails for odd numbers of states
  (`C83_columns_wrong`).
* C84: sections of small bodies are empty (`C84_small_wrong`).
* C85: limit points at one place for two obstacles, or sections at places that agree to two digits, replace
  each other (`C85_limit_points_wrong`, `C85_rounded_wrong`).

Observations without a theorem of their own: the inner force at a node does not depend on the prescribed
force of that node only; `nph.length` ignores the third coordinate; `get_node_index` has the absolute
tolerance 1/10000; the step `len**-1/2` in `intersection_contact_limit_points.py` is `1/(2 len)`;
`translate_nodes` changes its argument; `register("*")` excludes the relaxation problem; solving a second
time with the same product adds to its data.
