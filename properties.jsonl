{"id": "C01", "title": "Dropping unconnected nodes never moves an element", "statement": "After a mesh is loaded, dropping the nodes no element refers to leaves every element with the same vertices at the same coordinates, in the same vertex order: looking up the p-th vertex of the e-th element in the cleaned mesh gives the coordinates it had in the raw mesh.", "quantifier": "for every list of nodes, every list of elements whose entries are valid node numbers, every element and every vertex position", "why_tests_cant": "The renumbering is an in-place loop whose effect depends on which and how many node numbers are unused; tests try a handful of patterns out of 2^n.", "anchors": ["conmech/mesh/mesh.py: remove_unconnected_nodes_numba", "conmech/mesh/mesh.py: Mesh.__init__"]}
{"id": "C02", "title": "Dropping unconnected nodes keeps exactly the used nodes, in order", "statement": "The cleaned node list is the raw node list restricted to the nodes some element uses, in the original order; all node numbers in the cleaned elements are in range, every remaining node is used by some element, and cleaning an already clean mesh changes nothing.", "quantifier": "for every list of nodes and every list of elements with valid node numbers", "why_tests_cant": "Unused nodes may appear anywhere, in runs, first or last; a test covers a few placements only.", "anchors": ["conmech/mesh/mesh.py: remove_unconnected_nodes_numba"]}
{"id": "C03", "title": "The edge list is exactly the set of adjacent node pairs", "statement": "The edge list produced from the elements contains the pair (i, j) with i<j if and only if some element contains both nodes; no pair occurs twice and pairs are in lexicographic order. The edge matrix is symmetric.", "quantifier": "for every node count, every element list with valid node numbers and every pair of nodes", "why_tests_cant": "It is an if-and-only-if over all pairs of all meshes.", "anchors": ["conmech/mesh/mesh.py: get_edges_matrix", "conmech/mesh/mesh.py: get_edges_list_numba"]}
{"id": "C04", "title": "Reordering nodes is a relabelling that keeps the geometry", "statement": "One reordering step (moving a selected set of nodes to the top or to the bottom) permutes the nodes, and every element still refers to the same coordinates in the same vertex positions; selected nodes end up contiguous at the requested end.", "quantifier": "for every mesh, every set of selected node numbers and both directions", "why_tests_cant": "The in-place renumbering encodes pending node numbers as negative numbers in the same array; aliasing of old and new numbers would only show for particular permutations.", "anchors": ["conmech/mesh/boundaries_factory.py: reorder_numba", "conmech/mesh/boundaries_factory.py: reorder"]}
{"id": "C05", "title": "Node layout after mesh construction", "statement": "After mesh construction the nodes are laid out as four consecutive groups: contact nodes that are not Dirichlet, other boundary nodes, internal nodes, Dirichlet nodes; membership is decided by the user predicates on boundary nodes, Dirichlet taking precedence over contact.", "quantifier": "for every mesh, every contact predicate and every Dirichlet predicate", "why_tests_cant": "The layout is the outcome of four consecutive reorderings, two of which reverse groups; the claim must hold for all overlaps of the predicates.", "anchors": ["conmech/mesh/boundaries_factory.py: BoundariesFactory.identify_boundaries_and_reorder_nodes", "conmech/mesh/boundaries_factory.py: reorder_boundary_nodes"]}
{"id": "C06", "title": "Boundary node counts agree with the layout", "statement": "The contact, Neumann and Dirichlet node ranges computed from the counts select exactly the nodes of the respective group of the layout. (Holds for Dirichlet always; for contact and Neumann only when no node satisfies both predicates: otherwise the contact range swallows Neumann or internal nodes.)", "quantifier": "for every mesh and every pair of predicates", "why_tests_cant": "The failure needs a node in both predicates; the claim for non-overlapping predicates ranges over all meshes.", "anchors": ["conmech/mesh/boundaries_factory.py: reorder_boundary_nodes", "conmech/mesh/boundaries.py: Boundaries", "conmech/mesh/mesh.py: Mesh.contact_indices", "conmech/mesh/mesh.py: Mesh.neumann_indices", "conmech/mesh/mesh.py: Mesh.dirichlet_indices"]}
{"id": "C07", "title": "Boundary surfaces are the faces that belong to exactly one element", "statement": "The computed boundary surfaces are exactly the faces occurring in one and only one element; each is listed once and is paired with the vertex of its element that is not on the face; the boundary nodes are exactly the nodes of those faces.", "quantifier": "for every element list (triangles or tetrahedra) with distinct vertices per element", "why_tests_cant": "An if-and-only-if about all faces of all meshes.", "anchors": ["conmech/mesh/boundaries_factory.py: identify_surfaces_numba", "conmech/mesh/boundaries_factory.py: get_boundary_surfaces", "conmech/mesh/boundaries_factory.py: extract_unique_elements", "conmech/mesh/boundaries_factory.py: extract_unique_indices"]}
{"id": "C08", "title": "Every boundary surface is classified", "statement": "Each boundary surface is a contact, a Dirichlet or a Neumann surface according to the predicates evaluated at its barycentre, Neumann being exactly those that are neither; nothing else is listed.", "quantifier": "for every mesh and every pair of predicates", "why_tests_cant": "Coverage and exclusivity must hold for every predicate the user may write.", "anchors": ["conmech/mesh/boundaries_factory.py: BoundariesFactory.identify_boundaries_and_reorder_nodes", "conmech/mesh/boundaries_factory.py: apply_predicate_to_surfaces"]}
{"id": "C09", "title": "Mesh index ranges partition the nodes", "statement": "Contact, free and Dirichlet ranges split all node numbers without gap or overlap, the independent range is everything but Dirichlet, the number reported for a range is its length, and the boundary range selects the boundary nodes. (The reported free node count is wrong as soon as there is a Dirichlet node, and the boundary range is wrong as soon as there are both an internal and a Dirichlet node.)", "quantifier": "for every mesh, all counts", "why_tests_cant": "Counting identities over all sizes; small test meshes mask the double subtraction.", "anchors": ["conmech/mesh/mesh.py: Mesh.free_nodes_count", "conmech/mesh/mesh.py: Mesh.free_indices", "conmech/mesh/mesh.py: Mesh.independent_indices", "conmech/mesh/mesh.py: Mesh.boundary_indices", "conmech/mesh/boundaries.py: Boundaries.boundary_indices"]}
{"id": "C10", "title": "Surface normals are unit outward normals", "statement": "Every boundary surface gets a unit vector orthogonal to the surface and pointing away from the interior vertex of its element. (True when the surface list has the same order as the interior-vertex list; the list of surfaces is regrouped by type while the interior vertices are not, so with several surface types a normal can be zero or point inwards.)", "quantifier": "for every mesh and every classification of the surfaces", "why_tests_cant": "Depends on the interplay of two orderings, over all meshes and predicates; on convex test meshes the wrong pairing usually gives the right sign.", "anchors": ["conmech/mesh/boundaries.py: get_boundary_normals_2d / get_boundary_normals_3d", "conmech/mesh/boundaries.py: Boundaries.surface_normals", "conmech/mesh/boundaries.py: Boundaries.boundary_surfaces"]}
{"id": "C11", "title": "Boundary degrees of freedom are paired with the right condition entries", "statement": "Iterating over the degrees of freedom of a named boundary yields, for each coordinate, each boundary node exactly once, at index coordinate*node_count+node, paired with the entry of the condition array that belongs to this node.", "quantifier": "for every boundary given as a range or as a sorted list of node numbers with arbitrary gaps, every node count and every dimension", "why_tests_cant": "The list case splits at gaps; the number of gap patterns is exponential.", "anchors": ["conmech/mesh/boundaries.py: Boundaries.get_all_boundary_indices"]}
{"id": "C12", "title": "Dirichlet elimination yields the constrained system", "statement": "After imposing Dirichlet values on a linear system, a vector solves the new system if and only if it takes the prescribed values at the Dirichlet degrees of freedom and satisfies all remaining original equations.", "quantifier": "for every square system over the reals (or any field), every set of Dirichlet degrees of freedom and every prescribed values", "why_tests_cant": "An equivalence over all vectors and all systems.", "anchors": ["conmech/dynamics/statement.py: Statement.apply_dirichlet_condition"]}
{"id": "C13", "title": "Dirichlet elimination preserves symmetry and definiteness", "statement": "If the system matrix is symmetric it stays symmetric after imposing Dirichlet values; if its quadratic form is nonnegative/positive it remains so, so the energy minimised by the optimisation solvers is still that of the linear system.", "quantifier": "for every symmetric matrix and every Dirichlet set", "why_tests_cant": "Universal over matrices.", "anchors": ["conmech/dynamics/statement.py: Statement.apply_dirichlet_condition"]}
{"id": "C14", "title": "Several Dirichlet boundaries compose", "statement": "Imposing several Dirichlet boundaries one after the other (and one coordinate block after the other) is the same as imposing them all at once. (True when they are disjoint or agree where they overlap; if two boundaries give a shared node different values, the free equations use the first value while the node itself is given the last.)", "quantifier": "for every list of Dirichlet blocks", "why_tests_cant": "Sequential elimination over an arbitrary list of blocks; induction needed.", "anchors": ["conmech/dynamics/statement.py: Statement.apply_dirichlet_condition", "conmech/mesh/boundaries.py: Boundaries.get_all_boundary_indices"]}
{"id": "C15", "title": "Which Dirichlet boundaries are imposed", "statement": "All Dirichlet boundaries the user declared under the statement's name, or under the name followed by consecutive numbers from 0, are imposed, in order. (Numbered boundaries are ignored when the plain name exists, which is always so for the default name; numbering after a gap is ignored.)", "quantifier": "for every set of declared boundary names", "why_tests_cant": "Name resolution over arbitrary sets of names.", "anchors": ["conmech/dynamics/statement.py: Statement.find_dirichlet_conditions"]}
{"id": "C16", "title": "Returned solutions satisfy the Dirichlet conditions exactly", "statement": "Whatever the numerical backend returns, the solution handed back takes exactly the prescribed values at the Dirichlet degrees of freedom and the backend's values everywhere else.", "quantifier": "for every backend result, mesh size, Dirichlet boundary and prescribed values", "why_tests_cant": "Must hold for every backend output, including non-converged ones.", "anchors": ["conmech/solvers/solver.py: Solver.solve"]}
{"id": "C17", "title": "Vector layouts round-trip", "statement": "Stacking nodal vectors into a solution vector and unstacking give back the nodal vectors; entry coordinate*node_count+node of the stacked vector is that coordinate of that node; the reshaping in the state object is the same layout.", "quantifier": "for every node count, dimension and values", "why_tests_cant": "Index arithmetic for all sizes.", "anchors": ["conmech/helpers/nph.py: stack_column / unstack / stack", "conmech/state/state.py: State.set_displacement / set_velocity"]}
{"id": "C18", "title": "Schur complement solutions solve the full system", "statement": "Solving the condensed contact system and recovering the free nodes gives a vector which solves the full linear system, and every solution of the full system restricts to a solution of the condensed one.", "quantifier": "for every system with invertible free-free block, every split of the nodes into contact and free ones, in 1 and 2 unknowns per node", "why_tests_cant": "Equivalence over all matrices and splits, including the block index shuffling.", "anchors": ["conmech/solvers/optimization/schur_complement.py: calculate_schur_complement_matrices", "conmech/solvers/optimization/schur_complement.py: calculate_schur_complement_vector", "conmech/solvers/optimization/schur_complement.py: SchurComplement._solve_impl"]}
{"id": "C19", "title": "Schur and global optimisation minimise the same energy", "statement": "For a symmetric system, minimising the condensed energy plus any contact functional of the contact nodes and recovering the free nodes yields a minimiser of the full energy plus that functional, provided the free-free block is positive semidefinite and invertible.", "quantifier": "for every symmetric system, every contact functional depending on contact nodes only", "why_tests_cant": "Universally quantified over functionals and systems.", "anchors": ["conmech/solvers/optimization/schur_complement.py: SchurComplement", "conmech/solvers/optimization/global_optimization.py: GlobalOptimization", "conmech/solvers/solver_methods.py: make_cost_functional"]}
{"id": "C20", "title": "Condensed matrices stay consistent with the statement over time", "statement": "At each time step the condensed system handed to the optimiser is the condensation of the current left-hand side. (Holds when the left-hand side does not change between steps; with time-dependent relaxation it changes, but only the forces are recomputed.)", "quantifier": "for every number of steps and every relaxation function", "why_tests_cant": "Needs a history in which the operator changes.", "anchors": ["conmech/solvers/optimization/schur_complement.py: QuasistaticRelaxedSchur.iterate", "conmech/solvers/optimization/schur_complement.py: SchurComplement.recalculate_forces", "conmech/dynamics/statement.py: QuasistaticRelaxationStatement"]}
{"id": "C21", "title": "Triangle shape gradients are exact for linear functions", "statement": "On every non-degenerate triangle, the shape-function gradients used for assembly sum to zero and reproduce the gradient of every affine function; they do not depend on the orientation or order of the vertices.", "quantifier": "for every non-degenerate triangle and affine function", "why_tests_cant": "Holds for a continuum of triangles.", "anchors": ["conmech/dynamics/factory/_dynamics_factory_2d.py: get_integral_parts_numba", "conmech/dynamics/factory/_dynamics_factory_2d.py: denominator_numba"]}
{"id": "C22", "title": "Tetrahedron shape gradients are exact for linear functions", "statement": "On every non-degenerate tetrahedron, the shape-function gradients used for assembly sum to zero and reproduce the gradient of every affine function.", "quantifier": "for every non-degenerate tetrahedron and affine function", "why_tests_cant": "Holds for a continuum of tetrahedra.", "anchors": ["conmech/dynamics/factory/_dynamics_factory_3d.py: get_integral_parts_numba", "conmech/dynamics/factory/_dynamics_factory_3d.py: denominator_numba"]}
{"id": "C23", "title": "Mass and volume matrices carry the right total", "statement": "The element sizes are the geometric areas/volumes independent of vertex order; the entries of the mass matrix sum to the total area/volume, every row sums to the lumped share, the matrix is symmetric and its quadratic form nonnegative.", "quantifier": "for every mesh of non-degenerate triangles / tetrahedra", "why_tests_cant": "Assembled sum over arbitrary meshes.", "anchors": ["conmech/dynamics/factory/_dynamics_factory_2d.py: get_edges_features_matrix_numba", "conmech/dynamics/factory/_dynamics_factory_3d.py: get_edges_features_matrix_numba", "conmech/dynamics/factory/dynamics_factory_method.py: get_basic_matrices"]}
{"id": "C24", "title": "Stiffness blocks are mutually transposed and annihilate constants", "statement": "The assembled gradient-product blocks satisfy W[k][j] = transpose of W[j][k], and rows and columns of all of them (and the rows of the gradient blocks V) sum to zero.", "quantifier": "for every mesh in 2D and 3D", "why_tests_cant": "The unit tests contain a TODO for exactly this; it is a statement for all meshes.", "anchors": ["conmech/dynamics/factory/_dynamics_factory_2d.py: get_edges_features_matrix_numba", "conmech/dynamics/factory/_dynamics_factory_3d.py: get_edges_features_matrix_numba"]}
{"id": "C25", "title": "The Poisson matrix is symmetric positive semidefinite", "statement": "The Poisson/stiffness matrix is symmetric, its quadratic form is the sum over elements of size times squared gradient (hence nonnegative), and it maps constant fields to zero.", "quantifier": "for every mesh and every nodal field", "why_tests_cant": "All meshes, all fields.", "anchors": ["conmech/dynamics/factory/_abstract_dynamics_factory.py: calculate_poisson_matrix"]}
{"id": "C26", "title": "2D elasticity is isotropic Hooke elasticity", "statement": "The 2D elasticity matrix is symmetric, its quadratic form is the sum over elements of area times (2 mu strain:strain + lambda (div)^2), nonnegative for nonnegative coefficients, and translations and infinitesimal rotations produce no force.", "quantifier": "for every mesh, nodal field and coefficients", "why_tests_cant": "All meshes, all fields, all coefficients.", "anchors": ["conmech/dynamics/factory/_dynamics_factory_2d.py: DynamicsFactory2D.calculate_constitutive_matrices"]}
{"id": "C27", "title": "3D elasticity is isotropic Hooke elasticity", "statement": "The 3D elasticity matrix is symmetric, translations and infinitesimal rotations produce no force and its quadratic form is the isotropic Hooke energy. (Symmetry and translations hold; Hooke energy and rotations hold only if mu = lambda, because lambda is used in place of mu in diagonal blocks and the two are swapped in off-diagonal blocks.)", "quantifier": "for every tetrahedral mesh, field and coefficients", "why_tests_cant": "The first regression data set uses mu = lambda, for which the error is invisible.", "anchors": ["conmech/dynamics/factory/_dynamics_factory_3d.py: DynamicsFactory3D.calculate_constitutive_matrices"]}
{"id": "C28", "title": "Thermal coupling conserves energy", "statement": "Power delivered by temperature to the displacement equation equals the power withdrawn from the heat equation; a uniform temperature exerts no net force and rigid translations produce no heat; conduction is symmetric nonnegative for symmetric nonnegative conductivity.", "quantifier": "for every mesh, expansion tensor, conductivity tensor, fields", "why_tests_cant": "All fields and meshes.", "anchors": ["conmech/dynamics/factory/_dynamics_factory_2d.py: calculate_thermal_expansion / calculate_thermal_conductivity", "conmech/dynamics/statement.py: DynamicVelocityWithTemperatureStatement", "conmech/dynamics/statement.py: TemperatureStatement"]}
{"id": "C29", "title": "Density-weighted assembly", "statement": "Reassembling the stiffness with unit density reproduces the plain stiffness, and reassembly is linear in the density; an element of density zero contributes nothing.", "quantifier": "for every mesh and every density vector", "why_tests_cant": "The existing test does it on one mesh.", "anchors": ["conmech/dynamics/dynamics.py: Dynamics.asembly_w_matrix_with_density", "conmech/simulations/problem_solver.py: NonHomogenousSolver.update_density"]}
{"id": "C30", "title": "Integrated inner forces carry the right total", "statement": "The integrated inner forces sum, per coordinate, to the sum over elements of size times mean nodal force: for constant force the total is force times body size.", "quantifier": "for every mesh and every nodal force field", "why_tests_cant": "All meshes and fields.", "anchors": ["conmech/scene/body_forces.py: BodyForces.integrate", "conmech/dynamics/factory/_dynamics_factory_2d.py: get_edges_features_matrix_numba"]}
{"id": "C31", "title": "Surface weights carry the right total", "statement": "The weights used for outer forces sum to the total length/area of the Neumann boundary and each surface contributes equally to its nodes.", "quantifier": "for every list of surfaces and nodes", "why_tests_cant": "All meshes.", "anchors": ["conmech/scene/body_forces.py: get_surface_per_boundary_node_numba", "conmech/scene/body_forces.py: element_volume_part_numba"]}
{"id": "C32", "title": "Forces used at a time are those of the source at that time", "statement": "Whenever the nodal source is asked for at a time, it returns the source evaluated at this time on these nodes. (Holds over histories in which the source and nodes do not change and the cache is not cleared; after a clear, asking for the last time again returns nothing, and replacing the source at the same time returns stale values.)", "quantifier": "for every history of requests, source changes and clears", "why_tests_cant": "A cache defect shows only for particular histories.", "anchors": ["conmech/scene/body_forces.py: FieldSource.node_source", "conmech/scene/body_forces.py: BodyForces.clear"]}
{"id": "C33", "title": "The relaxation operator is that of the requested time", "statement": "Whenever the relaxation operator is asked for at a time, it is the operator assembled from the relaxation tensor at that time with the current stiffness. (Holds as long as the stiffness is not reassembled; after reassembly with an unchanged tensor the old operator is returned.)", "quantifier": "for every history of requests and reassemblies", "why_tests_cant": "Cache histories.", "anchors": ["conmech/dynamics/dynamics.py: Dynamics.relaxation", "conmech/dynamics/dynamics.py: Dynamics.reinitialize_matrices"]}
{"id": "C34", "title": "Time-stepping systems are the implicit Euler discretisations", "statement": "A velocity solves the assembled system of a step if and only if the equation of motion holds with the displacement at the end of the step: quasistatic A v + B (u + dt v) = f, dynamic M (v - v_old)/dt + A v + B (u + dt v) = f, wave and heat analogously; the static system is B u = f.", "quantifier": "for all operators, states, forces and non-zero time steps", "why_tests_cant": "Algebraic equivalence over all data.", "anchors": ["conmech/dynamics/statement.py: QuasistaticVelocityStatement / DynamicVelocityStatement / WaveStatement / TemperatureStatement / QuasistaticRelaxationStatement / StaticDisplacementStatement"]}
{"id": "C35", "title": "Piezoelectric coupling is consistent between the equations", "statement": "In coupled piezoelectric problems the electric potential acts on the displacement through the transpose of the operator through which displacement acts on the potential, with one and the same sign convention, in quasistatic and dynamic problems. (The quasistatic statement uses minus, the dynamic one plus, and the dynamic piezoelectric problem class resolves to a statement without any coupling.)", "quantifier": "for every potential and displacement; for the class used by each problem type", "why_tests_cant": "Sign conventions and class resolution are not visible on single regression values.", "anchors": ["conmech/dynamics/statement.py: QuasistaticVelocityWithPiezoelectricStatement", "conmech/dynamics/statement.py: DynamicVelocityWithPiezoelectricStatement", "conmech/scenarios/problems.py: PiezoelectricDynamicProblem"]}
{"id": "C36", "title": "Simulation clock", "statement": "After any number of steps the time recorded in the state equals the solver's time and equals the starting time plus the number of steps times the time step, and the displacement equals the initial displacement plus the time step times the sum of all velocities.", "quantifier": "for every number of steps and any step results", "why_tests_cant": "Invariant over arbitrarily long runs.", "anchors": ["conmech/simulations/problem_solver.py: ProblemSolver.run", "conmech/state/state.py: State.set_velocity"]}
{"id": "C37", "title": "Output steps are snapshots of one trajectory", "statement": "The states returned for given output steps are the states of one uninterrupted run after that many steps, in order, independent of how the run is chopped by outputs. (For non-decreasing output steps; otherwise a smaller later entry yields a repetition of the current state.)", "quantifier": "for every list of output steps", "why_tests_cant": "All lists of output steps.", "anchors": ["conmech/simulations/problem_solver.py: TimeDependentSolver.solve", "conmech/simulations/problem_solver.py: ProblemSolver.run"]}
{"id": "C38", "title": "Solving twice gives the same answer", "statement": "Calling solve a second time with the same arguments gives the same result. (True for the wave solver, which resets its clock; for the other time-dependent solvers the clock of the first run is kept while the new state starts at zero, so the first step of the second run is taken with a wrong time increment.)", "quantifier": "for every solver and every run length", "why_tests_cant": "History-dependent.", "anchors": ["conmech/simulations/problem_solver.py: TimeDependentSolver.solve", "conmech/simulations/problem_solver.py: WaveSolver.solve"]}
{"id": "C39", "title": "Resuming a wave simulation continues it", "statement": "Solving for n steps and then resuming from the returned state for m steps gives the same final state as solving for n+m steps. (Without products; a resumed state with products raises.)", "quantifier": "for every n, m, data and any deterministic backend", "why_tests_cant": "All split points.", "anchors": ["conmech/simulations/problem_solver.py: WaveSolver.solve", "conmech/state/state.py: State.copy", "conmech/state/products/product.py: Product.copy"]}
{"id": "C40", "title": "Coupled iteration is bounded and consistent", "statement": "The coupled (Uzawa) iteration performs at least five and at most ten passes whatever the residuals are (even NaN), and on exit the displacement used by the solver is the displacement at the beginning of the step plus the time step times the returned velocity.", "quantifier": "for every sequence of residuals / solver results", "why_tests_cant": "Termination for all behaviours of the inner solvers.", "anchors": ["conmech/simulations/problem_solver.py: ProblemSolver.find_solution_uzawa"]}
{"id": "C41", "title": "Displaced positions follow the displacement", "statement": "After any update of displacement or velocity the displaced node positions equal initial positions plus displacement. (Directly after the initial displacement has been set they do not.)", "quantifier": "for every sequence of state updates", "why_tests_cant": "Invariant over histories.", "anchors": ["conmech/state/state.py: State", "conmech/simulations/problem_solver.py: TimeDependentSolver.solve"]}
{"id": "C42", "title": "Stress reflects the current state", "statement": "The stress reported by a state is the constitutive law applied to the current displacement, velocity and time. (Only for the first request; afterwards the first result is returned forever.)", "quantifier": "for every history of updates and requests", "why_tests_cant": "Cache histories.", "anchors": ["conmech/state/state.py: State.stress"]}
{"id": "C43", "title": "Copies of a state are independent", "statement": "A copied state has the same values, and later changes of the original do not change the copy nor vice versa. (Values are preserved; but copied products lose their kind and cannot be updated, temperature and piezoelectric copies lose their products, and making a copy redirects the body to the copy.)", "quantifier": "for every history of updates after copying", "why_tests_cant": "Aliasing over arbitrary histories.", "anchors": ["conmech/state/state.py: State.copy", "conmech/state/state.py: TemperatureState.copy", "conmech/state/products/product.py: Product.copy"]}
{"id": "C44", "title": "Saving leaves the state untouched", "statement": "Saving a state leaves its sources, setup and law as they were, whether or not writing succeeds. (True if it succeeds; if writing fails they are lost.)", "quantifier": "for every state and every failure point of the write", "why_tests_cant": "Crash points.", "anchors": ["conmech/state/state.py: State.save"]}
{"id": "C45", "title": "Solver lookup", "statement": "Solver lookup by name is case-insensitive, returns the class registered for this kind of problem under this name and reports unknown names; the name a solver prints resolves to the same solver again; registration never silently replaces an existing name.", "quantifier": "for every registration history, name and kind of problem", "why_tests_cant": "All histories and names.", "anchors": ["conmech/solvers/_solvers.py: SolversRegistry.register / get_by_name", "conmech/simulations/problem_solver.py: ProblemSolver.solving_method"]}
{"id": "C46", "title": "All registered solvers can take a time step", "statement": "Every solver registered for a problem kind can perform a step of that kind. (The global optimisation solver for quasistatic relaxation always fails in its step because it does not pass the time.)", "quantifier": "for every state and time", "why_tests_cant": "Failure for all inputs, hidden because no test runs this combination.", "anchors": ["conmech/solvers/optimization/global_optimization.py: QuasistaticRelaxedGlobalOptimization.iterate", "conmech/dynamics/statement.py: QuasistaticRelaxationStatement"]}
{"id": "C47", "title": "The slope contact law is a convex potential with its derivative", "statement": "For every nonnegative slope, the contact potential is nonnegative, zero without penetration, convex, continuous and its derivative away from the kink is the stated subderivative, which is a subgradient everywhere.", "quantifier": "for all slopes, displacements, time steps", "why_tests_cant": "Continuum of inputs.", "anchors": ["conmech/dynamics/contact/relu_slope_contact_law.py: make_slope_contact_law"]}
{"id": "C48", "title": "The optimised cost is quadratic energy plus integrated contact cost", "statement": "The contact part of the cost integrates constant fields exactly (value times boundary length), is additive over surfaces, and is convex when the potential is convex, so that the total cost is convex for symmetric nonnegative systems.", "quantifier": "for every boundary, law and field", "why_tests_cant": "All boundaries and fields.", "anchors": ["conmech/solvers/solver_methods.py: make_cost_functional", "conmech/solvers/solver_methods.py: interpolate_node_between", "conmech/solvers/solver_methods.py: get_nodes"]}
{"id": "C49", "title": "The subgradient passed to the optimiser is the gradient of the cost", "statement": "The analytic subgradient equals the gradient of the cost. (Total force per edge agrees, and it is exact where the law's slope is constant along the edge; in general end-point samples are distributed to both nodes and the gradient is wrong.)", "quantifier": "for every boundary, law and field", "why_tests_cant": "Identity of functions.", "anchors": ["conmech/solvers/solver_methods.py: make_subgradient", "conmech/solvers/solver_methods.py: make_equation"]}
{"id": "C50", "title": "Product ranges", "statement": "Restricting a product to a time range keeps exactly the entries later than start and not later than stop; ranges over adjacent intervals partition the entries.", "quantifier": "for every product and every pair of times", "why_tests_cant": "All time tables.", "anchors": ["conmech/state/products/product.py: Product.range"]}
{"id": "C51", "title": "Zero estimation", "statement": "The estimated zeros are increasing, lie inside the scanned interval (up to one step), each comes from a bracket with a sign change, and every sign change between consecutive scan points is reported.", "quantifier": "for every function, interval, positive step and any bracketing root finder", "why_tests_cant": "All functions.", "anchors": ["conmech/state/products/intersection_contact_limit_points.py: IntersectionContactLimitPoints.estimate_zeros"]}
{"id": "C52", "title": "The cross mesh is well formed", "statement": "The generated cross mesh has the advertised number of nodes and elements, all node slots are filled, all elements refer to existing nodes and their areas add up to the rectangle.", "quantifier": "for every resolution", "why_tests_cant": "All resolutions.", "anchors": ["conmech/mesh/zoo/cross_for_tests.py: cross_mesh"]}
{"id": "C53", "title": "The cube mesh is a valid tetrahedralisation", "statement": "The hard-coded cube mesh consists of non-degenerate tetrahedra with total volume one, every face belongs to one or two of them, and its boundary faces lie on the faces of the cube.", "quantifier": "for every element and face of the table", "why_tests_cant": "Tests compare solver output on it with stored numbers only.", "anchors": ["conmech/mesh/zoo/cube.py"]}
{"id": "C54", "title": "Mesh placement", "statement": "Translating a mesh to an initial position keeps all differences of nodes and puts the coordinate-wise minimum at the position; normalisation maps nodes into the unit cube.", "quantifier": "for all node lists", "why_tests_cant": "All node lists.", "anchors": ["conmech/mesh/mesh_builders.py: translate_nodes", "conmech/mesh/zoo/pygmsh/_utils.py: normalize_nodes"]}
{"id": "C55", "title": "Operator arithmetic", "statement": "Sums, differences and scalings of operators act as such on vectors and do not modify their operands; in-place operators leave the operator updated. (In-place operators rebind the variable to nothing.)", "quantifier": "for all operators", "why_tests_cant": "All operands.", "anchors": ["conmech/struct/stiffness_matrix.py"]}
{"id": "C56", "title": "Conflicting display options are rejected", "statement": "A configuration that both shows and saves is rejected and every other combination is accepted.", "quantifier": "for all configurations", "why_tests_cant": "Decision table.", "anchors": ["conmech/helpers/config.py"]}
{"id": "C57", "title": "Penetration product", "statement": "The penetration product records at each update the minimum vertical position over the contact nodes, one entry per distinct time.", "quantifier": "for every state and history", "why_tests_cant": "All states.", "anchors": ["conmech/state/products/penetration.py"]}
{"id": "C58", "title": "Solvers can be constructed without a contact law", "statement": "A problem without a contact law can be solved by every registered method. (Only by the direct one: the others look into the contact law before checking that it exists.)", "quantifier": "for every problem without contact law", "why_tests_cant": "Failure for all inputs.", "anchors": ["conmech/solvers/optimization/optimization.py: Optimization.__init__"]}
{"id": "C59", "title": "Dirichlet conditions hold in all coordinates", "statement": "For a body in d dimensions a Dirichlet condition on a displacement or velocity is imposed on all d coordinates. (Static statement: yes; quasistatic and dynamic statements are hard-wired to two, so on a 3D mesh the third coordinate is left unconstrained; a clamped body therefore falls like a free one in dynamic problems, and the systems of quasistatic problems are singular.)", "quantifier": "for every mesh dimension", "why_tests_cant": "No 3D dynamic test exists.", "anchors": ["conmech/dynamics/statement.py: QuasistaticVelocityStatement", "conmech/dynamics/statement.py: DynamicVelocityStatement", "conmech/dynamics/statement.py: StaticDisplacementStatement"]}
{"id": "C60", "title": "Body forces follow the clock", "statement": "In a step from t to t+dt of the coupled solvers forces are evaluated at the end of the step, in the uncoupled ones at its beginning; in particular all steps of one solver use times spaced by dt and no time is skipped or used twice.", "quantifier": "for every number of steps", "why_tests_cant": "Trace property of the whole run.", "anchors": ["conmech/simulations/problem_solver.py: ProblemSolver.run", "conmech/simulations/problem_solver.py: ProblemSolver.find_solution_uzawa", "conmech/dynamics/statement.py: Statement.update"]}
{"id": "C61", "title": "Each time step solves the system of the current state", "statement": "After iterate the statement of the solver holds the system of the state written into the solver (displacement, velocity, temperature, potential, absement, time step and time). (Violated by the direct solver, which is registered for dynamic problems and never updates its statement.)", "quantifier": "for every registered solver, problem class and history of states", "why_tests_cant": "Needs all histories; a run with zero initial state and one step does not show a stale system.", "anchors": ["conmech/solvers/solver.py: Solver.iterate", "conmech/solvers/direct.py: Direct", "conmech/solvers/optimization/global_optimization.py", "conmech/solvers/optimization/schur_complement.py"]}
{"id": "C62", "title": "The relaxation operator respects the symmetries of its tensor", "statement": "With a relaxation tensor that has the components of an isotropic Hooke tensor the relaxation operator is the elasticity operator; it is symmetric for tensors with the major symmetry, translations produce no relaxation force, and infinitesimal rotations produce none for tensors with the minor symmetry.", "quantifier": "for every triangular mesh, tensor and displacement", "why_tests_cant": "tests run one tensor on one mesh and compare numbers with stored results", "anchors": ["conmech/dynamics/factory/_dynamics_factory_2d.py: DynamicsFactory2D.get_relaxation_tensor"]}
{"id": "C63", "title": "Piezoelectric coupling and permittivity are exact for linear fields", "statement": "The piezoelectric operator couples the gradient of the potential with the displacement gradient through the given tensor; translations create no charge, rotations none for symmetric tensors, a uniform potential exerts no force and no potential a net force; the permittivity operator is symmetric and nonnegative with its tensor and maps uniform potentials to zero.", "quantifier": "for every triangular mesh, tensors, potential and displacement", "why_tests_cant": "tests run one tensor on one mesh and compare numbers with stored results", "anchors": ["conmech/dynamics/factory/_dynamics_factory_2d.py: DynamicsFactory2D.get_piezoelectric_tensor", "conmech/dynamics/factory/_dynamics_factory_2d.py: DynamicsFactory2D.get_permittivity_tensor"]}
{"id": "C64", "title": "The constant-resistance law is the derivative of its potential", "statement": "For the contact law with constant resistance, the stated subderivative is the derivative of the stated potential, so that the direct and the optimising solvers solve the same problem. (Only where the normal static displacement is one; without static displacement the potential vanishes identically.)", "quantifier": "for all resistances, displacements and static displacements", "why_tests_cant": "The derivative relation is a statement about all real arguments; a test samples a few and the regression tests use one law per solver.", "anchors": ["conmech/dynamics/contact/constant_constact_law.py: make_const_contact_law"]}
{"id": "C65", "title": "Damped normal compliance is a continuous law with its derivative", "statement": "The potential of the damped normal compliance law is continuous in the velocity and its derivative is the stated subderivative; the product with the bound, which is what is minimised, has that derivative too. (There is a jump where the obstacle is reached, and the product has another derivative.)", "quantifier": "for all obstacle levels, stiffness and damping coefficients, velocities, displacements and time steps", "why_tests_cant": "Continuity and derivatives quantify over all reals.", "anchors": ["conmech/dynamics/contact/damped_normal_compliance.py: make_damped_norm_compl"]}
{"id": "C66", "title": "The Schur complement method and the global method minimise the same functional", "statement": "For the same problem, the minimiser of the condensed cost, completed by the free nodes, minimises the full cost including the contact part. (True if all nodes of contact surfaces are contact nodes; Dirichlet nodes on contact surfaces are taken with their old velocity, which is zero in static problems, instead of their prescribed value.)", "quantifier": "for every system, boundary and contact law", "why_tests_cant": "Minimality quantifies over all competing fields; tests compare two numerical optimisers on a few meshes.", "anchors": ["conmech/solvers/solver_methods.py: get_nodes", "conmech/solvers/solver.py: Solver.solve", "conmech/solvers/optimization/schur_complement.py: SchurComplementOptimization._solve_impl"]}
{"id": "C67", "title": "Contact laws of scalar problems get the displacement itself", "statement": "In scalar problems (waves, temperature, electric potential) the contact law is evaluated with the scalar unknown and the scalar static displacement. (The latter is multiplied by the sum of the coordinates of the normal, so on a side with normal (0,-1) it has the wrong sign.)", "quantifier": "for every boundary, law and field", "why_tests_cant": "Quantifies over all boundaries; tests use one side of the domain.", "anchors": ["conmech/solvers/solver_methods.py: make_cost_functional"]}
{"id": "C68", "title": "Configurations made at different times have different output directories", "statement": "Two configurations that are created without an output directory write to directories named by their own creation times, so that a later run does not overwrite the results of an earlier one. (The default time stamp is taken once, when the module is loaded, and shared by all configurations.)", "quantifier": "for all sequences of configurations, times and arguments", "why_tests_cant": "Quantifies over all creation histories; tests create one configuration with a fixed directory.", "anchors": ["conmech/helpers/config.py: Config.timestamp", "conmech/helpers/config.py: Config.path"]}
{"id": "C69", "title": "The ball mesh is a valid tetrahedralisation", "statement": "The hard-coded ball mesh consists of positively oriented tetrahedra, every face belongs to one or two of them, neighbours lie on different sides of their common face, no two of them overlap, every node is used, and the corners of its boundary faces lie on one sphere around the origin.", "quantifier": "for every element, node and face of the table", "why_tests_cant": "Validity is a property of the whole table; tests do not inspect it.", "anchors": ["conmech/mesh/zoo/ball.py"]}
{"id": "C70", "title": "Elements of a generated mesh respect the maximal element perimeter", "statement": "In a generated cross mesh the perimeter of every element is at most max_element_perimeter. (Only the sides of the rectangular cells are bounded by it; the perimeter of the elements is more than twice as large if the sides of the domain are multiples of it.)", "quantifier": "for all domain sizes and maximal perimeters", "why_tests_cant": "Quantifies over all sizes; tests use a few meshes and do not measure the elements.", "anchors": ["conmech/mesh/zoo/cross_for_tests.py", "conmech/properties/mesh_description.py"]}
{"id": "C71", "title": "Simulations never gain energy", "statement": "With constant loads, zero prescribed velocities and contact that does no positive work (in particular without contact, or when each step minimises its energy plus a contact cost that does not grow when the motion is slowed down), the kinetic plus stored energy minus the work of the loads never grows from one returned state to a later one, for every positive time step: dynamic elasticity, quasistatic elasticity (without the kinetic part) and waves, also resumed ones. The assembled matrices of every triangular mesh with nonnegative coefficients meet the conditions, and so does the slope law.", "quantifier": "for every mesh, nonnegative coefficients (in space with lambda <= mu, see C120), initial state, time step, number of steps and list of output steps", "why_tests_cant": "Unconditional stability is a statement about all step sizes and all runs; tests run a few examples for a few steps and do not compute energies.", "anchors": ["conmech/dynamics/statement.py: DynamicVelocityStatement, WaveStatement", "conmech/simulations/problem_solver.py: TimeDependentSolver.solve, WaveSolver.solve", "conmech/solvers/solver_methods.py: make_cost_functional"]}
{"id": "C72", "title": "Momentum changes by the impulse of the loads", "statement": "In dynamic problems without contact the momentum in the direction of every rigid motion allowed by the supports (translations and infinitesimal rotations) changes in each step by the time step times the load in that direction at the beginning of the step; with constant loads the momentum of a returned state is the initial one plus elapsed time times load. The same holds for the total of the velocity in wave problems.", "quantifier": "for every mesh, coefficients, loads, initial state, time step and number of steps", "why_tests_cant": "A balance over arbitrarily many steps and all rigid motions; tests do not compute momenta.", "anchors": ["conmech/dynamics/statement.py: DynamicVelocityStatement, WaveStatement", "conmech/simulations/problem_solver.py: TimeDependentSolver.solve, WaveSolver.solve", "conmech/dynamics/factory/_dynamics_factory_2d.py"]}
{"id": "C73", "title": "Bodies at rest in equilibrium stay at rest", "statement": "If the initial displacement balances constant loads and the initial velocity is zero, every state returned by a dynamic or wave simulation has the initial displacement and zero velocity; quasistatic simulations keep the displacement whatever the initial velocity.", "quantifier": "for every mesh, nonnegative coefficients (in space with lambda <= mu, see C120), equilibrium, time step and number of steps", "why_tests_cant": "Quantifies over all equilibria and arbitrarily long runs.", "anchors": ["conmech/dynamics/statement.py", "conmech/simulations/problem_solver.py: TimeDependentSolver.solve, WaveSolver.solve"]}
{"id": "C74", "title": "Supported problems have exactly one solution", "statement": "After imposing the Dirichlet conditions the systems of dynamic elasticity, of waves and of heat conduction in time have exactly one solution on every mesh in which every node belongs to a triangle; those of static and quasistatic elasticity have exactly one if the fixed nodes hold all nodes (repeatedly: two held nodes of a triangle hold the third); Poisson systems if every node is joined to a constrained one. Without any support static systems are never uniquely solvable.", "quantifier": "for every triangular mesh (waves, heat conduction, Poisson problems and, with the second coefficient not above the first, dynamic elasticity also on every tetrahedral mesh), positive coefficients, supports, prescribed values and loads", "why_tests_cant": "Solvability for all meshes and supports is a theorem of linear algebra, tests see single meshes.", "anchors": ["conmech/dynamics/statement.py: Statement.apply_dirichlet_condition", "conmech/dynamics/factory/_dynamics_factory_2d.py", "conmech/dynamics/factory/dynamics_factory_method.py"]}
{"id": "C75", "title": "Static and Poisson problems return the solution of the assembled system", "statement": "For a static displacement problem, whatever registered solver is chosen, StaticSolver.solve returns a state whose displacement has the prescribed values on the Dirichlet nodes and satisfies elasticity @ displacement = forces in all other rows, provided the numerical backend solves the system the solver holds. The result depends neither on the initial displacement nor on earlier calls of solve if the system has only one solution. PoissonSolver.solve starts from the zero temperature and returns the solution of the discrete Poisson equation with the prescribed values, and the same again when called again.", "quantifier": "for all meshes, operators, loads, boundary values, initial displacements, products and registered static solvers", "why_tests_cant": "Tests compare a few solutions with stored ones; they do not show that what is returned solves the assembled system for every mesh and load or that nothing of an earlier call leaks into a later one.", "anchors": ["conmech/simulations/problem_solver.py:284-295", "conmech/simulations/problem_solver.py:320-339", "conmech/solvers/solver.py:28-65", "conmech/dynamics/statement.py"]}
{"id": "C76", "title": "The minimiser and the options asked for are the ones used", "statement": "The keyword arguments method, maxiter and tol of solve determine the numerical minimiser: every documented name, in any mixture of upper and lower case, selects its minimiser and no name selects two; other names go to scipy unchanged; a name after 'gradiented ' is used with the subgradient of the contact law, the default is BFGS without it. In every sequence of calls each call minimises the cost functional of the solver. maxiter and tol reach the minimiser, and without maxiter the limit is a thousand times the number of unknowns. This holds for all runners.", "quantifier": "for all method names (strings), limits, tolerances, sequences of calls with one solver, runners and sizes of meshes", "why_tests_cant": "The names are strings and calls can follow each other in any order; tests use a few names and see only whether the result is close enough.", "anchors": ["conmech/solvers/optimization/optimization.py:40-55", "conmech/solvers/optimization/optimization.py:116-241", "conmech/simulations/problem_solver.py:139-190", "conmech/simulations/problem_solver.py:192-262"]}
{"id": "C77", "title": "The constrained method keeps contact nodes above the obstacle", "statement": "With method 'constrained' the minimisation is subject to the constraint that the vertical component of the unknown is not negative at every contact node, and at no other degree of freedom, for every number of unknowns per node.", "quantifier": "for all numbers of nodes and contact nodes, dimensions and vectors", "why_tests_cant": "The constraint is an index computation (the middle of the vector) whose meaning depends on the layout; a test shows one layout.", "anchors": ["conmech/solvers/optimization/optimization.py:203-222"]}
{"id": "C78", "title": "Simulations solve the equations of their problem with its coefficients", "statement": "Every simulation class made for a kind of problem can be constructed for it, on plane and on spatial meshes, and the systems its statements assemble are those of the problem's equations with the operators belonging to the coefficients of the problem: elasticity from mu and lambda, viscosity from theta and zeta, thermal, electric and relaxation tensors and the wave speed as given, mass density one. No operator that a statement needs is missing. The same holds for every problem class accepted by the signature of a simulation.", "quantifier": "for all simulation and problem classes, all their equations, all coefficients (numbers and tensors), meshes and variables", "why_tests_cant": "Tests run each simulation with one set of coefficients and one mesh and see only whether a result appears; exchanged or ignored coefficients give plausible results.", "anchors": ["conmech/simulations/problem_solver.py:264-684", "conmech/properties/body_properties.py:7-69", "conmech/dynamics/factory/dynamics_factory_method.py:14-97", "conmech/scenarios/problems.py:65-196"]}
{"id": "C79", "title": "Sources act on nodes as declared and the declared defaults are no loads", "statement": "Sources (forces, heat sources) that are functions of a node and the time give as many loads per node as they return values: at every node the integral of the inner source plus the outer source times the loaded surface. A problem that keeps the default sources declared in its base class is simulated without loads. Forces with one value per node give the loads of the scalar wave equation.", "quantifier": "for all meshes, weights, sources, numbers of components and times", "why_tests_cant": "All tests and examples override the sources; the defaults and the shapes for other dimensions are never executed.", "anchors": ["conmech/scenarios/problems.py:47-57", "conmech/scenarios/problems.py:91-97", "conmech/scene/body_forces.py:50-89", "conmech/dynamics/statement.py:69-100"]}
{"id": "C80", "title": "The documented solving methods are available", "statement": "For every kind of problem the solving methods named in the documentation of the simulation constructors, 'schur', 'optimization' and 'direct', select a solver of that kind.", "quantifier": "for all kinds of problems and documented names", "why_tests_cant": "Tests use the names that work; the documentation lists the names for each of seven constructors.", "anchors": ["conmech/simulations/problem_solver.py:270", "conmech/simulations/problem_solver.py:302", "conmech/simulations/problem_solver.py:352", "conmech/simulations/problem_solver.py:418", "conmech/solvers/_solvers.py: SolversRegistry.get_by_name"]}
{"id": "C81", "title": "Plots of limit points show exactly the recorded points", "statement": "plot_limit_points draws one point for every zero at every time of the product, and no other point, with one entry of the legend.", "quantifier": "for all products: any number of times, any number of zeros at each time", "why_tests_cant": "The points are collected in a buffer of fixed size; the result depends on how the numbers of zeros add up to the size of the buffer, and plots are not compared in tests.", "anchors": ["conmech/plotting/membrane.py:40-66"]}
{"id": "C82", "title": "Drawings show the whole body, its edges and its supports and loads", "statement": "In every drawing the limits of the axes contain all nodes in their original and displaced positions, the drawn edges are the edges of the elements, every fixed node has an arrow, and every loaded node has an arrow with the force at the current time.", "quantifier": "for all meshes, states and sequences of drawings with one drawer", "why_tests_cant": "Tests only check that drawing does not raise, for one mesh and one drawing.", "anchors": ["conmech/plotting/drawer.py:113-141", "conmech/plotting/drawer.py:166-171", "conmech/plotting/drawer.py:205-263"]}
{"id": "C83", "title": "Any number of states can be plotted", "statement": "plot draws a single state, and plot_in_columns draws any list of states, each in a place of its own.", "quantifier": "for all numbers of states and keyword arguments", "why_tests_cant": "Plots of membranes are not tested; scripts use particular numbers of states.", "anchors": ["conmech/plotting/membrane.py:15-37", "conmech/plotting/membrane.py:68-91"]}
{"id": "C84", "title": "Vertical sections are sampled from the bottom to the top of the body", "statement": "The samples of a VerticalIntersection increase from the lowest to the highest node of the mesh without gaps larger than three half node distances, whatever the size of the body, and the stored values are the interpolated displacements there.", "quantifier": "for all meshes (heights and numbers of nodes) and levels", "why_tests_cant": "The number of samples is the integral part of a quotient that depends on the unit of length; tests use bodies of unit size.", "anchors": ["conmech/state/products/verticalintersection.py:26-42"]}
{"id": "C85", "title": "Every injected product collects its data", "statement": "All products given to a simulation are kept under names of their own and get data at each time step: different products do not replace each other.", "quantifier": "for all lists of products and sequences of updates", "why_tests_cant": "Names are built from rounded numbers and do not contain all parameters; collisions need particular combinations of products.", "anchors": ["conmech/state/state.py:84-89", "conmech/state/products/verticalintersection.py:27-29", "conmech/state/products/intersection_contact_limit_points.py:28-31"]}
{"id": "C86", "title": "Affine fields pass the patch test", "statement": "On any mesh without overlapping elements, a homogeneous deformation (and an affine temperature or potential) produces no nodal force at nodes that are not on the boundary, for every choice of coefficients, and a problem without loads whose boundary nodes are moved affinely is solved by exactly that affine field.", "quantifier": "for all triangular and tetrahedral meshes without degenerate or overlapping elements, all coefficients, all affine fields and all interior nodes", "why_tests_cant": "The forces from the elements around a node cancel only in exact arithmetic and only because neighbouring elements lie on different sides of a face; tests check a few meshes to a tolerance.", "anchors": ["conmech/dynamics/factory/_dynamics_factory_2d.py", "conmech/dynamics/factory/_dynamics_factory_3d.py", "conmech/dynamics/factory/dynamics_factory_method.py", "conmech/simulations/problem_solver.py: StaticSolver.solve"]}
{"id": "C87", "title": "The boundary of a generated rectangle is found exactly", "statement": "On a generated cross mesh the nodes that the program takes for boundary nodes are exactly the nodes on the four sides of the rectangle that was asked for, so the nodes with imposed values are those on the sides at which the Dirichlet predicate holds; no node of the mesh is unconnected.", "quantifier": "for all element sizes, widths and heights (above the tolerance of the search for nodes), and all predicates", "why_tests_cant": "Boundary nodes are found by counting faces of all elements; a wrong element anywhere adds or removes boundary nodes, and the meshes tested have a few cells.", "anchors": ["conmech/mesh/zoo/cross_for_tests.py", "conmech/mesh/boundaries_factory.py: get_boundary_surfaces", "conmech/mesh/mesh.py: remove_unconnected_nodes_numba"]}
{"id": "C88", "title": "Interior contact balances the forces of the law", "statement": "The functional minimised for contact in the interior of a body has its minimum where the forces of the system are in balance with the reaction of the law, weighted by the volume matrix; the reaction grows with the penetration as the law says, and as long as the body stays below the obstacle the minimiser is the solution without contact. (The reaction is half the derivative of what the law gives, and for the damped law the same constant at every depth.)", "quantifier": "for all systems with symmetric matrix, all differentiable laws, all displacements, volume matrices and time steps", "why_tests_cant": "Tests run a membrane against an obstacle for a few steps and compare to stored results, which contain the same factor.", "anchors": ["conmech/solvers/solver_methods.py: make_equation", "conmech/solvers/optimization/optimization.py: Optimization.__init__", "conmech/dynamics/contact/damped_normal_compliance.py", "conmech/dynamics/contact/interior_contact_law.py"]}
{"id": "C89", "title": "Contact problems with a convex law have exactly one solution, stable under changes of the loads", "statement": "For a convex contact law the cost that is minimised in a step has exactly one minimiser (for dynamic problems always, for static and quasistatic ones if the supports hold the body), so that all optimisation methods that reach the minimum agree; it satisfies the variational inequality of the contact problem, and the energy of the difference of two solutions is at most the work of the difference of the loads.", "quantifier": "for all triangular meshes, coefficients, supports, loads, contact surfaces and convex laws; for static problems also all tetrahedral meshes with lambda not above mu", "why_tests_cant": "Existence and uniqueness quantify over all vectors, and methods are compared on a handful of problems up to the tolerance of the minimiser.", "anchors": ["conmech/solvers/solver_methods.py: make_cost_functional", "conmech/dynamics/statement.py", "conmech/solvers/optimization/optimization.py: Optimization._solve_impl"]}
{"id": "C90", "title": "The discretisation does not depend on the position, orientation and numbering of the mesh", "statement": "When the body is translated, turned, reflected or enlarged by c, areas, volumes and masses are multiplied by the power of c of the dimension, the derivative matrices turn with the body, the Poisson matrix and the elastic energy of the turned displacement stay the same (times c in space). When nodes, elements or the vertices within elements are listed in another order, all entries are the same under the new numbers.", "quantifier": "for all meshes of non-degenerate triangles and tetrahedra, all rotations, reflections, translations, enlargements and renumberings", "why_tests_cant": "The symmetry group is infinite; a test moves one mesh by one motion and compares floating point entries.", "anchors": ["conmech/dynamics/factory/dynamics_factory_method.py: get_basic_matrices", "conmech/dynamics/factory/_dynamics_factory_2d.py: get_edges_features_matrix_numba, calculate_constitutive_matrices", "conmech/dynamics/factory/_dynamics_factory_3d.py: get_edges_features_matrix_numba, calculate_constitutive_matrices"]}
{"id": "C91", "title": "Recovered gradients and stresses are those of the displacement", "statement": "The gradient recovered at a node is the mean of the gradients of the surrounding triangles, so exact for affine fields; the stress of the viscoelastic and of the elastic law with relaxation is symmetric, zero for rigid motions, and for affine fields it is the stress which the elasticity, viscosity and relaxation matrices balance.", "quantifier": "for all triangular meshes, nodes of elements, coefficients, displacements and velocities", "why_tests_cant": "The stresses are only drawn; no test compares them with the displacement, and a comparison on one mesh would not cover all fields and coefficients.", "anchors": ["examples/utils.py: calculate_dx_dy", "examples/utils.py: gradient", "examples/utils.py: viscoelastic_constitutive_law", "examples/utils.py: elastic_relaxation_constitutive_law"]}
{"id": "C92", "title": "Seeds, extent and centring of a mesh", "statement": "The seed of an axis is a pair of different nodes, directed along the axis, such that no other pair is closer to be parallel to it, and the chosen axis is that with the smallest error; the extent of a mesh is the greatest difference of coordinates of two nodes; centring keeps all differences and puts the mean of the nodes at the origin. Extent and centred nodes do not depend on the position of the mesh.", "quantifier": "for all meshes, dimensions and axes", "why_tests_cant": "Optimality is a statement about all pairs of nodes of all meshes; no test covers these helpers, and meshes of the size used in tests do not show the dependence on the unit of length.", "anchors": ["conmech/mesh/mesh.py: get_closest_to_axis_numba", "conmech/mesh/mesh.py: get_base_seed_indices_numba", "conmech/mesh/mesh.py: Mesh.scale", "conmech/mesh/mesh.py: Mesh.normalize_shift"]}
{"id": "C93", "title": "Imported meshes are the meshes of the file", "statement": "An imported mesh has the points of the file and as elements exactly its tetrahedra, or its triangles if there are no tetrahedra; its dimension is that of its elements, their sizes are those in the file, and the whole body is covered. Files without such cells are rejected.", "quantifier": "for all mesh files (points and blocks of cells)", "why_tests_cant": "One example file is imported by one example; files with other combinations of cells and points are never tried.", "anchors": ["conmech/properties/mesh_description.py: ImportedMeshDescription.build"]}
{"id": "C94", "title": "Heat and energy of thermoelastic runs", "statement": "In all states returned by the solver of thermoelastic problems the heat of the body (temperature times capacity plus the heat bound by the deformation), weighted with any field that conduction does not resist and that vanishes where the temperature is prescribed, is that of the initial state; for an insulated body it is the total heat. Without loads the total energy never grows. (The second is false if the passes of a step have not converged when they are ended after the tenth.)", "quantifier": "for every mesh, material, time step, number of steps, contact and mechanical solver, provided the heat equation is solved exactly", "why_tests_cant": "Conservation concerns all initial fields, meshes, materials and step counts and mixes two solvers whose iteration is cut off after a variable number of passes; tests compare single runs with stored pictures or norms.", "anchors": ["conmech/simulations/problem_solver.py: ProblemSolver.find_solution_uzawa", "conmech/simulations/problem_solver.py: TemperatureTimeDependentSolver.solve", "conmech/dynamics/statement.py: TemperatureStatement"]}
{"id": "C95", "title": "Charge in piezoelectric runs", "statement": "In all states returned after at least one step by the solver of piezoelectric problems the potential belongs to the returned displacement: nodes where it is not prescribed carry no charge, electrodes have their prescribed potential, and the charges of all electrodes add up to zero.", "quantifier": "for every triangular mesh, permittivity, piezoelectric tensor, electrodes, mechanical solver and number of steps, provided the equation of the potential is solved exactly", "why_tests_cant": "It holds whatever the mechanical part does and for every material tensor, also unsymmetric ones; tests can only sample runs, and a potential lagging one pass behind would pass within tolerances.", "anchors": ["conmech/simulations/problem_solver.py: ProblemSolver.find_solution_uzawa", "conmech/simulations/problem_solver.py: PiezoelectricTimeDependentSolver.solve", "conmech/dynamics/statement.py: PiezoelectricStatement"]}
{"id": "C96", "title": "The contact laws of the examples", "statement": "The laws that the published examples pass to the solvers describe the response they are plotted with: the potential of a layered (composite) material is continuous, zero before the material and linear behind it, and has the piecewise linear response through the given values at the given levels as derivative between levels; partitioned levels increase from the start to the end of the material with the given ratio of thicknesses; the other potentials are continuous, bounded or continuously differentiable; and a subderivative declared beside a potential is the derivative of that potential off the kinks.", "quantifier": "for all layer numbers, levels, response values, displacements, temperatures, slopes, limits and friction coefficients", "why_tests_cant": "Tests run the examples for one set of parameters and compare a picture or the final state; a wrong factor, sign or constant of integration in a law changes the result only slightly for some displacements, and no test relates a declared subderivative to its potential.", "anchors": ["examples/BartmanSzwarc_Bagirrov_Ochal_2025.py", "examples/utils.py", "examples/Makela_et_al_1998.py", "examples/BartmanSzwarc_Ochal_Tarzia_2026.py", "examples/Jureczka_Ochal_Bartman_2023.py", "examples/BartmanSzwarc_Ochal_Sofonea_Tarzia_2025.py", "examples/example_manufactured_solution.py"]}
{"id": "C97", "title": "Manufactured solution and error norms", "statement": "The manufactured solution of the example solves, in the strong form, exactly the boundary value problem that is passed to the solver (forces, tractions, clamped edge, contact law), so the printed error is the error of the method; and the printed and drawn error numbers are the norms they are named after: the total error is the exact integral norm of the difference of the piecewise linear fields and zero only for equal fields, the nodal errors are local means of it, the relative temperature error is relative, the comparison of states vanishes only for equal displacements.", "quantifier": "for all amplitudes, materials, meshes of triangles and nodal fields", "why_tests_cant": "Running the example prints a number that decreases with the mesh size; whether the limit is zero and whether the number is the norm it is called cannot be seen from finitely many runs, and a wrong factor is invisible in a convergence plot.", "anchors": ["examples/example_manufactured_solution.py", "examples/BartmanSzwarc_Ochal_Tarzia_2026.py", "examples/error_estimates.py"]}
{"id": "C98", "title": "Temperatures stay within the range of the data", "statement": "On a triangular mesh without obtuse angles the temperature returned by PoissonSolver is nowhere below the prescribed values if nothing cools and nowhere above them if nothing heats, and grows with sources and prescribed values; in runs of TemperatureTimeDependentSolver without thermal expansion, with isotropic conductivity and a time step that is not too short for the triangles, the temperatures of all returned states stay between the initial and the prescribed temperatures. A generated cross mesh has no obtuse angles exactly if its cells are squares. Without these conditions the bounds fail: an obtuse mesh and too short a time step both produce temperatures below all data.", "quantifier": "for all triangular meshes, materials, sources, prescribed and initial temperatures, numbers of steps and mechanical solvers", "why_tests_cant": "Whether a discrete solution overshoots depends on angles of all triangles and on the ratio of time step and mesh size; finitely many runs show neither that it never happens on good meshes nor that it can happen on others.", "anchors": ["conmech/dynamics/statement.py", "conmech/simulations/problem_solver.py", "conmech/dynamics/factory/_dynamics_factory_2d.py", "conmech/dynamics/dynamics.py", "conmech/mesh/zoo/cross_for_tests.py"]}
{"id": "C99", "title": "Superposition, reciprocity and reactions of the supports", "statement": "For static elastic problems on the same supported body the returned displacements add up when the loads and the prescribed displacements do. With fixed supports the loads of one problem do the same work along the displacement of another as the loads of the other along the displacement of the first, the work of the loads is never negative, and it does not grow when the body is made stiffer or more of it is supported. The forces that are missing for equilibrium act at the supports only, and their resultant and their moment are opposite to those of the loads. The displacement returned has the least energy among all displacements with the prescribed values. Temperatures of Poisson problems add up in the same way, the influence of a source on the place of another is mutual, and the heat that leaves at the prescribed temperatures is the heat of the sources.", "quantifier": "for all triangular meshes, coefficients, supports, loads, prescribed values, registered static solvers and initial displacements", "why_tests_cant": "The statement relates the results of different problems for all pairs of loads; a test compares a few of them on one mesh up to rounding.", "anchors": ["conmech/simulations/problem_solver.py:284-295", "conmech/simulations/problem_solver.py:320-339", "conmech/dynamics/statement.py", "conmech/dynamics/factory/_dynamics_factory_2d.py"]}
{"id": "C100", "title": "Results kept in files are those of the parameters they are shown for", "statement": "An example that keeps results in files and loads them in later runs shows, for each of its parameters, the result of the simulation with exactly these parameters, whether it has been simulated in this run or found in a file of an earlier run of the example; without `force` nothing is simulated for which there is a file; files and the table of losses hold results of the parameters in their names, and a repeated run simulates nothing and shows the same.", "quantifier": "All simulations, all sequences of earlier runs of the example with any parameters, `force` or not, all parameters of the run.", "why_tests_cant": "The claim is about every history of runs and every combination of files left by them; tests run each example once, forced, in a fresh directory, and never look at what a later run loads.", "anchors": ["examples/BartmanSzwarc_Ochal_Tarzia_2026.py:113-125", "examples/BartmanSzwarc_Ochal_Tarzia_2026.py:461-536", "examples/Makela_et_al_1998.py:145-241", "examples/BartmanSzwarc_Bagirrov_Ochal_2025.py:207-328", "examples/BartmanSzwarc_Ochal_Sofonea_Tarzia_2025.py:102-180", "examples/BOSK_2024.py:63-112", "examples/Jureczka_Ochal_Bartman_2023.py:94-188", "examples/Bartman_Ochal_Sofonea_2024.py:80-223"]}
{"id": "C101", "title": "Contact problems are solved with the supports held, and all forces balance", "statement": "For a body that is held at its supports and may touch an obstacle, the displacement returned by the optimising solvers has the least energy, contact included, among all displacements with the prescribed values. It is in balance: the internal forces are those of the loads and of the contact at every unknown that is not held, so that reactions act at the supports only, and the resultant and the moment of the reactions and of the contact pressures are opposite to those of the loads. The obstacle only pushes, only where it is penetrated; if the displacement without obstacle does not penetrate it, it is returned unchanged, and the loads never do more work than without obstacle.", "quantifier": "All triangular meshes, coefficients, supports, prescribed values, loads, obstacles with frictionless differentiable laws, and all backends that minimise the functional they are given.", "why_tests_cant": "The claim compares the result with every other admissible displacement and every load; tests compare one displacement with a stored one and never compute the reactions.", "anchors": ["conmech/solvers/solver.py:83-99", "conmech/solvers/solver_methods.py:163-256", "conmech/dynamics/statement.py:40-52", "conmech/solvers/optimization/optimization.py", "conmech/dynamics/contact/relu_slope_contact_law.py"]}
{"id": "C102", "title": "The sides of a generated rectangle carry exactly their length", "statement": "On a generated cross mesh the boundary surfaces are the equal parts of the four sides of the rectangle, each listed once. With predicates that choose whole sides (contact at y == 0, held at x == 0 and the like) a surface is a contact, Dirichlet or Neumann surface exactly if it lies on a side of that kind, the surfaces of each kind add up to the lengths of these sides, and a constant body force and a constant surface force have the totals force times area and force times length of the remaining sides. A predicate that chooses only a part of a side finds surfaces of its length up to one cell.", "quantifier": "For all element sizes, widths and heights (above the tolerance of the search for nodes), all predicates that choose sides or parts of sides, and all constant forces.", "why_tests_cant": "Tests look at a few meshes with a few sizes; that no surface is missing, doubled or put in the wrong class has to hold for every size, every number of cells and every choice of sides.", "anchors": ["conmech/mesh/boundaries_factory.py:45-68", "conmech/mesh/boundaries_factory.py:177-253", "conmech/mesh/zoo/cross_for_tests.py:14-100", "conmech/scene/body_forces.py:12-35", "conmech/scene/body_forces.py:67-89"]}
{"id": "C103", "title": "Nonmonotone responses split into increasing ones", "statement": "The function sub2derivative_normal_direction declared beside the response of the nonmonotone contact laws (composite materials, delamination) is the total amount by which the response has fallen up to the displacement, so the response is the difference of two responses that never decrease (the potential is a difference of convex ones).", "quantifier": "for all increasing levels, response values and displacements", "why_tests_cant": "The claim is about every pair of displacements and every list of layers; a plot on a grid misses the single displacements where it fails.", "anchors": ["examples/BartmanSzwarc_Bagirrov_Ochal_2025.py", "examples/Makela_et_al_1998.py"]}
{"id": "C104", "title": "Refining a generated rectangle never makes the body stiffer", "statement": "If the cells of a generated rectangle are halved and material, supports and constant loads stay the same, the loads do at least as much work in the static (or Poisson) problem: the result on the finer mesh is at least as compliant, and the gain is exactly the energy of the difference between the two computed fields.", "quantifier": "for all rectangles, cell lengths above the tolerance of the node search, sides held, sides in contact, Lame and conductivity coefficients, constant forces per area and per length, and all triangular meshes one of which refines the other", "why_tests_cant": "The order of the two results holds for every choice of supports, coefficients and loads; a test compares single numbers of single meshes.", "anchors": ["conmech/mesh/zoo/cross_for_tests.py: CrossMesh", "conmech/mesh/boundaries_factory.py", "conmech/dynamics/factory/_dynamics_factory_2d.py", "conmech/simulations/problem_solver.py: StaticSolver.solve, PoissonSolver.solve"]}
{"id": "C105", "title": "Time steps follow the motion of the body, the closer the smaller they are", "statement": "For a supported body there is exactly one motion in continuous time from the initial state, with elastic, viscous and inertial forces, loads and convex contact in balance at every moment. Every state returned by `solve` of a dynamic problem or a wave problem lies within a fixed multiple of the elapsed time and of the time step of this motion, measured by the energy of the difference; the multiple does not depend on the time step, and there is no restriction on the time step. States of two runs do not drift apart by more than their initial difference and the accumulated difference of their loads.", "quantifier": "for all positive time steps, numbers of steps and output lists, triangular meshes (without contact also tetrahedral ones, for elastic bodies with the second coefficients not above the first), densities, Lame and viscosity coefficients, supports, loads that change at a bounded rate, initial states, contact laws given by a convex potential of the velocity with Lipschitz continuous forces", "why_tests_cant": "The motion in continuous time is not computable exactly, and the claim ranges over all time steps; a test can only compare runs with a few time steps with each other.", "anchors": ["conmech/dynamics/statement.py: DynamicVelocityStatement, WaveStatement", "conmech/simulations/problem_solver.py: TimeDependentSolver.solve, WaveSolver.solve", "conmech/state/state.py: set_velocity"]}
{"id": "C106", "title": "Time steps of quasistatic problems follow the quasistatic motion", "statement": "For a viscous body whose supports hold all of its nodes there is exactly one quasistatic motion in continuous time from the initial displacement, with viscous and elastic forces, loads and convex contact in balance at every moment. The displacement of every state returned by `solve` of a quasistatic problem lies within a fixed multiple of the time step of this motion, measured by the stored energy of the difference; the multiple does not depend on the time step, and there is no restriction on the time step. Two quasistatic motions with the same loads never move apart.", "quantifier": "for all positive time steps, numbers of steps and output lists, triangular meshes, Lame and viscosity coefficients, supports, loads that change at a bounded rate, initial displacements, contact laws given by a convex potential of the velocity", "why_tests_cant": "The motion in continuous time is not computed anywhere; convergence is a statement about all time steps at once and about an object defined by a differential inclusion.", "anchors": ["conmech/dynamics/statement.py: QuasistaticVelocityStatement", "conmech/simulations/problem_solver.py: TimeDependentSolver.solve", "conmech/state/state.py: set_velocity"]}
{"id": "C107", "title": "Under constant loads a viscous body comes to rest at the static solution", "statement": "For a viscous supported body under constant loads, the states returned by `solve` of dynamic and quasistatic problems approach the displacement returned by the static solver for the same body, loads and supports, and velocity zero. The square of the distance, measured by stored and kinetic energy, decreases at least geometrically with the number of steps; the rate per unit of time does not depend on the time step, so that after a fixed time all runs are as close to rest as desired. Contact with an obstacle whose forces depend on the velocity does not change the limit.", "quantifier": "for all positive time steps, numbers of steps and output lists, triangular meshes, densities, Lame and viscosity coefficients, supports holding all nodes, constant loads, initial displacements that vanish on the supports, initial velocities, slopes of the contact law", "why_tests_cant": "The limit is reached only after infinitely many steps, and the rate has to be the same for all time steps; tests run finitely many steps with few time steps.", "anchors": ["conmech/dynamics/statement.py: DynamicVelocityStatement, QuasistaticVelocityStatement, StaticDisplacementStatement", "conmech/simulations/problem_solver.py: TimeDependentSolver.solve, StaticSolver.solve", "conmech/state/state.py: set_velocity"]}
{"id": "C108", "title": "The assembled matrices are integrals over the body", "statement": "The matrices returned by the two-dimensional factory functions are integrals of functions over the body in the sense of measure theory. If u and w are the continuous piecewise affine functions with nodal values x and y, then the element volumes are the Lebesgue measures of the triangles, x·U·y is the integral of u w, x·V_k·y is the integral of u times the partial derivative of w, x·W_kl·y is the integral of the product of partial derivatives, the Poisson matrix gives the Dirichlet integral, the elasticity matrix the integral of the elastic energy density of Hooke's law, and the work of the integrated inner forces is the integral of force times displacement. The triangles of a generated rectangle fill the rectangle, so that for the built-in rectangle these are integrals over the rectangle.", "quantifier": "for all real meshes of non-degenerate triangles which do not overlap, nodal values, indices of the partial derivatives, Lame coefficients, conductivities; generated rectangles of all sizes and densities", "why_tests_cant": "Integrals with respect to Lebesgue measure of arbitrary piecewise affine functions on arbitrary meshes; tests compare finitely many numbers on fixed meshes.", "anchors": ["conmech/dynamics/factory/_dynamics_factory_2d.py: get_edges_features_matrix_numba, DynamicsFactory2D", "conmech/dynamics/factory/dynamics_factory_method.py: get_basic_matrices, get_dynamics", "conmech/scenarios/problems.py: PoissonProblem", "conmech/scene/body_forces.py: get_integrated_inner_forces"]}
{"id": "C109", "title": "Computed temperatures approximate the exact solution of the Poisson problem", "statement": "Let u be a temperature that solves the boundary value problem which the user states: the divergence of the heat flow k² grad u balances the constant heat sources, the flow through loaded sides is the given one and there is none through the other sides that are not held. Then the temperature returned by PoissonSolver.solve with the values of u at the held nodes is the best approximation of u by piecewise affine functions on the mesh, in the mean square norm of the gradients, and its error is at most proportional to the size of the elements. On generated rectangles the integral of k² |grad u - grad T|² is at most 8192 k² M² perimeter² width height, where M bounds the second derivatives of u and perimeter is the mesh density parameter.", "quantifier": "for all meshes of non-degenerate triangles that do not overlap, conductivities, constant sources and boundary sources, exact solutions with continuous second derivatives, prescribed values and backends that solve their systems; all generated rectangles", "why_tests_cant": "The claim compares the computed field with every exact solution of the differential equation on every mesh; tests can only look at the error for single solutions and meshes.", "anchors": ["conmech/simulations/problem_solver.py: PoissonSolver", "conmech/dynamics/statement.py: StaticPoissonStatement", "conmech/scene/body_forces.py: integrate", "conmech/mesh/zoo/cross_for_tests.py: CrossMesh; conmech/mesh/boundaries_factory.py"]}
{"id": "C110", "title": "Computed static displacements approximate the exact solution of the equations of elasticity", "statement": "Let w be a displacement whose stresses, by Hooke's law, balance the constant forces inside the body and on the loaded sides, with no stress on the other sides that are not held. Then the displacement returned by StaticSolver.solve with the values of w at the held nodes is the best approximation of w by piecewise affine displacements on the mesh, measured by the stored energy of the difference, and the energy of the error is at most proportional to the square of the size of the elements. On generated rectangles it is at most (8 mu + 4 lambda) (64 M perimeter)² width height, where M bounds the second derivatives of w.", "quantifier": "for all meshes of non-degenerate triangles that do not overlap, non-negative Lame coefficients, constant forces, exact solutions with continuous second derivatives, prescribed values and backends that solve their systems; all generated rectangles", "why_tests_cant": "The claim compares the computed field with every exact solution of the differential equations on every mesh; tests can only look at the error for single solutions and meshes.", "anchors": ["conmech/simulations/problem_solver.py: StaticSolver", "conmech/dynamics/statement.py: StaticDisplacementStatement", "conmech/scene/body_forces.py: integrate", "conmech/dynamics/factory/dynamics_factory_method.py: get_dynamics", "conmech/mesh/zoo/cross_for_tests.py: CrossMesh; conmech/mesh/boundaries_factory.py"]}
{"id": "C111", "title": "Every step of a contact run solves the contact problem of the current state, also where supports end at contact surfaces", "statement": "In a run of a plane dynamic or quasistatic problem in velocities with the Schur solver and a convex contact law, the velocities after every step are the field of least energy, contact included, among all fields with the prescribed values at the supports; loads, matrices and contact law are evaluated for the displacements and velocities of the state before the step. Contact surfaces may end at supported nodes. The condition is that the initial velocities are the prescribed ones there; the solver then keeps them so. For laws that depend on the velocity only and fixed supports, the states returned by solve are close to the one motion of the body, with an error proportional to the time step.", "quantifier": "all triangular meshes, supports, contact surfaces, convex laws, loads, time steps, numbers of steps and initial states with the prescribed velocities at the supported ends of contact surfaces", "why_tests_cant": "The Schur solver condenses the system once, updates its forces in every step and reads the velocities of supported contact nodes from the previous step; whether the three stay consistent over a whole run is not visible in any single result, and there is no reference solution for a contact problem to compare with.", "anchors": ["conmech/solvers/solver.py:82-101", "conmech/solvers/optimization/optimization.py:59-142", "conmech/solvers/optimization/schur_complement.py:27-190", "conmech/solvers/solver_methods.py:29-170", "conmech/simulations/problem_solver.py:139-190,437-478"]}
{"id": "C112", "title": "The results of a contact simulation depend neither on the solving method nor on the optimiser", "statement": "Two simulations of the same contact problem in velocities, started from the same initial state with the same time step and output steps, return states that show the same body: same times, and the same displacements, velocities and positions of all nodes. It does not matter whether one uses the Schur complement and the other the global optimisation method, which optimiser each of them uses, and which products are recorded.", "quantifier": "All plane meshes, coefficients, supports, prescribed velocities, forces, convex contact laws, numbers of steps and output steps; all optimisers that find a minimiser whenever there is one.", "why_tests_cant": "A test compares two runs with one mesh, one law and one pair of optimisers, up to a tolerance. That the sequences of states agree for every problem follows from the uniqueness of each step and from both methods solving the problem of the same state in each step, which no finite number of runs shows.", "anchors": ["conmech/solvers/optimization/optimization.py", "conmech/solvers/optimization/schur_complement.py", "conmech/solvers/optimization/global_optimization.py", "conmech/simulations/problem_solver.py", "conmech/solvers/solver.py"]}
{"id": "C113", "title": "The direct method finds the equilibrium of the body on the obstacle", "statement": "StaticSolver.solve with the direct method returns the displacement of a body in equilibrium: it takes the prescribed values, the forces on all free nodes balance, contact forces included, and the reactions of the supports balance the loads and the pressures in resultant and moment. It is the displacement of least energy, the one that the optimising methods return, and it does not depend on the initial displacement. Without a contact law it is the elastic solution. The method applies to every contact law with a subderivative and to bodies in the plane and in space.", "quantifier": "All triangular meshes, coefficients, supports, prescribed displacements, forces, contact boundaries, contact laws and initial displacements; all root finders that find a root whenever there is one, all linear solvers that solve uniquely solvable systems.", "why_tests_cant": "A test compares the direct method with an optimiser on one mesh with one law, up to a tolerance. Whether the equation has a root, whether there is only one, and whether it is the displacement of least energy has to be settled for all loads and laws; the loads for which it fails are not those of the example.", "anchors": ["conmech/solvers/direct.py", "conmech/solvers/solver_methods.py", "conmech/solvers/solver.py", "conmech/simulations/problem_solver.py"]}
{"id": "C114", "title": "Very stiff obstacles and very good heat exchange approximate rigid obstacles and walls of given temperature", "statement": "The examples compare runs with laws alpha times phi for larger and larger alpha with one run for 'infinity'. For bodies on an obstacle, no contact node sinks deeper than K/alpha, and the displacements returned by StaticSolver.solve tend to those returned with the method 'constrained': the energy of the difference and the square of the difference at each node are at most K/alpha. Friction may act. For temperatures, the values returned by PoissonSolver.solve tend to those returned by the direct method with the contact nodes held at the temperature b of the wall: at no node do they differ by more than K/alpha, although the law is not convex. K depends neither on alpha nor on the solving method nor on the optimiser. Gaps and obstacles on any side are respected by the method 'constrained' as they are by the laws.", "quantifier": "All triangular meshes, supports, prescribed values, loads, coefficients, surfaces, laws that repel at a level or attract to a level and grow at least like a parabola near it, convex friction, alpha > 0, global and condensed solvers, external minimisers, root finders and inverses that fulfil their contracts.", "why_tests_cant": "A test compares a few values of alpha on one mesh; a rate with one constant for all alpha, all meshes and all solvers, and convergence itself, are statements about infinitely many runs.", "anchors": ["examples/BartmanSzwarc_Ochal_Tarzia_2026.py:57-86,461-480", "examples/BartmanSzwarc_Ochal_Sofonea_Tarzia_2025.py:34-99", "conmech/solvers/optimization/optimization.py:203-225", "conmech/solvers/optimization/schur_complement.py:68-139", "conmech/simulations/problem_solver.py:262-339"]}
{"id": "C115", "title": "Bodies with relaxation follow the history of displacements in continuous time", "statement": "Let the relaxation tensor not depend on time. There is exactly one history of displacements such that at every moment the elastic forces, the relaxation forces of the integral of the past displacements, the loads, contact and supports are balanced. The absements of the states returned by QuasistaticRelaxation.solve differ from the integral of this history by at most K times the time step, and the displacements of all states after the start by at most K times the time step at every node, whatever initial displacement was given. K depends neither on the time step nor on the optimiser nor on the output steps. If the tensor depends on time, past displacements count according to how long ago they were.", "quantifier": "All triangular meshes, supports that hold the body, loads that change at a bounded rate, initial absements and displacements, isotropic elasticity and relaxation, convex contact laws that do not depend on former displacements, time steps, output steps, minimisers and inverses that fulfil their contracts.", "why_tests_cant": "Convergence to a history in continuous time with one constant for all time steps concerns infinitely many runs, and the history itself is not known in closed form.", "anchors": ["conmech/simulations/problem_solver.py:342-411", "conmech/dynamics/statement.py:118-140", "conmech/solvers/optimization/schur_complement.py:162-176", "conmech/dynamics/dynamics.py:89-101", "conmech/state/state.py:29-45"]}
{"id": "C116", "title": "Thermoelastic runs follow the thermoelastic motion, and the passes of a step approach the coupled step", "statement": "A thermoelastic body has exactly one motion from a given displacement, velocity and temperature, in which at every moment momentum and heat are balanced, and two motions never get further apart. In every time step velocity and temperature can be found together in exactly one way. find_solution_uzawa finds them in turn: if the coupling of the fields in a time step is at most q < 1, the returned temperature differs from the one found together by at most q to the power 10 and the velocity by at most q to the power 9 of what the temperature at the beginning differed. The states returned by TemperatureTimeDependentSolver.solve differ from the motion by at most a constant times the elapsed time times the time step, although a step stops after five to ten passes and however strong the coupling is. The coupling is at most one in all time steps that are short enough, and, on any triangular mesh, in every time step if the squares of the expansion coefficients add up to at most twice density times shear modulus, as in the example of the project. Runs do return.", "quantifier": "All triangular meshes, supports, nodes kept at zero temperature, loads that change at a bounded rate, initial states, coefficients, contact and heat exchange laws with Lipschitz continuous forces, time steps, output steps, residual norms that decide when to stop, and solvers that fulfil their contracts.", "why_tests_cant": "The limit of infinitely many runs, one constant for all time steps, and contraction for every state and mesh are not visible in finitely many runs; the motion is not known in closed form.", "anchors": ["conmech/simulations/problem_solver.py:192-263", "conmech/simulations/problem_solver.py:504-573", "conmech/dynamics/statement.py:186-240", "examples/example_temperature_dynamic.py:42-60"]}
{"id": "C117", "title": "Quasistatic piezoelectric runs follow the piezoelectric motion, and the passes of a step approach the coupled step", "statement": "A viscous piezoelectric body with electrodes has exactly one quasistatic motion from a given displacement, in which at every moment forces are balanced and no charge is outside of the electrodes, and two motions never get further apart in their elastic and electric energy. In every time step velocity and potential can be found together in exactly one way. find_solution_uzawa finds them in turn: if the coupling of the fields in a time step is at most q < 1 and the potential at the beginning is right on the electrodes, the returned potential differs from the one found together by at most q to the power 10 and the velocity by at most q to the power 9 of what the potential at the beginning differed. The displacements returned by PiezoelectricTimeDependentSolver.solve and, after the start, the potentials differ from the motion by at most a constant times the time step, for every time step and strength of the coupling and every initial potential, although a step stops after five to ten passes. On triangular meshes the coupling is bounded by the coefficients and the time step alone. Runs do return.", "quantifier": "All triangular meshes, supports, electrodes and their potentials, loads that change at a bounded rate, initial displacements and potentials, coefficients with positive shear viscosity and positive definite symmetric permittivity, convex contact laws, time steps, output steps, residual norms that decide when to stop, and solvers that fulfil their contracts.", "why_tests_cant": "The limit of infinitely many runs, one constant for all time steps, and contraction for every state and mesh are not visible in finitely many runs; the motion is not known in closed form.", "anchors": ["conmech/simulations/problem_solver.py:192-263", "conmech/simulations/problem_solver.py:599-669", "conmech/dynamics/statement.py:230-265", "examples/example_piezo_quasistatic.py:45-90"]}
{"id": "C118", "title": "Coupled simulations give the same results with either method, and follow the motion with the solvers as they are", "statement": "If nothing is exchanged on the boundary of the second field, as in all examples of the project, both methods solve its equations in every call, with whatever optimiser. Two simulations of the same coupled problem from the same initial state return states that show the same body and the same temperature or potential at the same times, whether they use the Schur complement or the global optimisation method, whichever optimiser and inverse they use and with whatever fuel. The states returned follow the thermoelastic or piezoelectric motion with an error that goes to zero with the time step. No node of a contact surface may be held if the global method is used, and no node may be held in one direction only.", "quantifier": "All triangular meshes, supports, prescribed temperatures and potentials, coefficients, initial states, obstacles with a convex law of the velocity, forces, time steps, output steps, stopping criteria that look at the components of the fields, optimisers that find a minimiser whenever there is one and functions that invert matrices.", "why_tests_cant": "The method and the optimiser change every number that is computed on the way, and two runs are compared by tests only for some meshes, coefficients and up to tolerances which hide systematic differences; that a condensed system stays up to date during all passes of all steps can not be observed from outside.", "anchors": ["conmech/simulations/problem_solver.py:192-263", "conmech/simulations/problem_solver.py:504-573", "conmech/simulations/problem_solver.py:599-669", "conmech/solvers/optimization/schur_complement.py", "conmech/solvers/optimization/global_optimization.py", "conmech/solvers/solver.py:76-100", "examples/example_temperature_dynamic.py:19-40", "examples/example_piezo_quasistatic.py:20-41"]}
{"id": "C119", "title": "The table of convergence shows the errors and the orders of convergence", "statement": "The table printed by draw_convergence_plots has one row for every mesh, in the given order, with the distances of the states for infinite and for finite alpha from the state for infinite alpha on the finest mesh. The rate in a row is the only power of the mesh size that its error and the error above are proportional to; there is none in the first row and none where an error is zero or unknown. If errors lie between two multiples of a power of the mesh size, the rate differs from this power by at most the quotient of the logarithms of the multiples and of the mesh sizes. The rates do not depend on whether errors are absolute or relative, together they give the last error from the first one, and for a method of order q they are larger than q by an amount that vanishes with the size of the finest mesh. The second column does not show errors from the reference that the caption names. The plots show one distance for every pair but the last one.", "quantifier": "All lists of meshes and values of alpha, all states, missing states, errors and mesh sizes.", "why_tests_cant": "The orders of convergence are stated for all sequences of errors and meshes; a test computes the rates of one sequence, and the error of measuring from the finest mesh instead of the exact solution does not show in any test.", "anchors": ["examples/BartmanSzwarc_Ochal_Tarzia_2026.py:295-458"]}
{"id": "C120", "title": "A clamped elastic body in space takes the displacement of least energy", "statement": "For a static displacement problem on a tetrahedral mesh whose clamped nodes hold the body, the elasticity matrix stores energy and is definite, the system has exactly one solution for all loads and prescribed values, and the displacement which the solver returns is the only one of least energy among those with the prescribed values; the resistance to shearing is mu in all directions.", "quantifier": "all valid meshes of non-degenerate tetrahedra, all clamped sets from which every node can be reached through tetrahedra with three held nodes, all coefficients mu > 0 and lambda >= 0, all loads and prescribed values", "why_tests_cant": "The tests contain no static problem in space; whether the matrix is definite depends on the coefficients and on the shape of the body, and a solve of a single body that happens to be low enough looks fine although a higher body of the same material gains energy when it is turned.", "anchors": ["conmech/dynamics/factory/_dynamics_factory_3d.py:154-180", "conmech/dynamics/factory/dynamics_factory_method.py:51-97", "conmech/solvers/optimization/optimization.py", "conmech/simulations/problem_solver.py"]}
{"id": "C121", "title": "Every mode of a body oscillates for itself and loses a known share of its energy in each step", "statement": "A body without contact under constant loads, whose viscous forces are a combination of those of inertia and elasticity (for instance none), has a finite set of shapes, which do not depend on time step, loads and initial state, such that every state returned by `solve` of a dynamic or wave problem is the balanced displacement plus a sum of these shapes, with amplitudes that are those of independent oscillators q'' + γ q' + κ q = 0 advanced by implicit steps. The energy of the motion is the sum of the energies of the oscillators. Without viscosity each oscillator keeps exactly the share 1 / (1 + κ dt²) of its energy in a step and turns by the angle arctan(ω dt) in place of ω dt, where κ = ω²: computed oscillations die out although nothing dissipates, and they are slower than those of the body.", "quantifier": "for all positive time steps, numbers of steps and output lists, triangular meshes and (with the second coefficient not above the first, and for waves) tetrahedral meshes, densities, coefficients, supports, constant loads that some displacement balances, initial states that respect the supports; systems solved exactly", "why_tests_cant": "A test compares some states of one run with stored numbers; that the states of every run are sums of independent oscillations, and how much energy the method itself takes from each of them, concerns all meshes, time steps and initial states at once.", "anchors": ["conmech/dynamics/statement.py: DynamicVelocityStatement, WaveStatement", "conmech/simulations/problem_solver.py: TimeDependentSolver.solve, WaveSolver.solve", "conmech/state/state.py: set_velocity"]}
{"id": "C122", "title": "Every shape of a creeping body decays for itself, a little too slowly", "statement": "A supported body without contact under constant loads has a finite set of shapes, which do not depend on time step, loads and initial state, such that every state returned by `solve` of a quasistatic problem is the balanced displacement plus a sum of these shapes, with amplitudes that are divided by 1 + κ dt in every step, where κ > 0 is the ratio of the elastic and the viscous forces of the shape. After the time t the remaining part is at least exp(-κ t), the one of the body, and at most exp(-κ t + κ² t dt). The displacements of all late states are close to the one that balances the loads, with every time step, however long.", "quantifier": "for all positive time steps, numbers of steps and output lists, triangular meshes, Lame and viscosity coefficients, supports that hold all nodes, constant loads, initial states that respect the supports; systems solved exactly", "why_tests_cant": "A test compares some states of one run with stored numbers; that the states of every run are sums of independently decaying shapes with known factors concerns all meshes, time steps, loads and initial states at once.", "anchors": ["conmech/dynamics/statement.py: QuasistaticVelocityStatement", "conmech/simulations/problem_solver.py: TimeDependentSolver.solve", "conmech/state/state.py: set_velocity"]}
{"id": "C123", "title": "Every shape of the temperature decays for itself and temperatures become steady", "statement": "If a body is not heated by its motion, the temperature in every state returned by TemperatureTimeDependentSolver.solve is the steady temperature plus a sum of shapes, which depend only on the mesh, the material and the nodes with prescribed temperature, and the amplitude of each shape is divided by 1 + kappa dt in every step, where kappa is the ratio of its conducted to its stored heat. Such shapes exist and every initial temperature with the prescribed values is made of them. There is exactly one steady temperature if all nodes are joined to nodes with prescribed temperature, and the temperatures of all late states are close to it with every time step, however long. In an insulated connected body they are close to the mean of the initial temperature weighted with the capacity.", "quantifier": "All triangular and tetrahedral meshes, densities, symmetric positive conductivity tensors, prescribed and initial temperatures, time steps, output steps, mechanical parts and contact laws; the heat equation is solved exactly.", "why_tests_cant": "It is about all modes of all meshes, all time steps and arbitrarily late times.", "anchors": ["conmech/simulations/problem_solver.py:504-573", "conmech/dynamics/statement.py:186-240", "conmech/dynamics/factory/_dynamics_factory_2d.py", "conmech/dynamics/factory/_dynamics_factory_3d.py"]}
{"id": "C124", "title": "Simulations of a moved, turned or renumbered body return the moved, turned or renumbered states", "statement": "When a plane elastic body is translated, turned or reflected, and its nodal loads and initial displacements and velocities are turned or reflected with it, every state returned by `solve` of a dynamic or quasistatic problem without contact has the same time and exactly the turned or reflected displacements and velocities. Loads assembled from force densities that turn with the body turn with it, and loads of a renumbered body are the renumbered loads. The same holds for the displacement returned for a static problem, also with prescribed displacements, and the temperature of the Poisson equation does not change. Waves in a body, in the plane or in space, do not change at all. When the nodes get other numbers, the returned values are the same under the new numbers. More generally two simulations whose operators, supports, loads and initial states correspond under a linear map return corresponding states, in any dimension.", "quantifier": "for all rotations, reflections, translations and renumberings, all meshes of non-degenerate triangles (renumbered operators also for tetrahedra), densities and coefficients, supports without motion, time-dependent loads, initial states, positive time steps, numbers of steps and output lists; systems solved exactly; quasistatic bodies held by their supports", "why_tests_cant": "A test compares one body in two positions or numberings for some steps; the claim is about every position, orientation and numbering and every state of every run, and the two runs share neither matrices nor unknowns.", "anchors": ["conmech/dynamics/factory/_dynamics_factory_2d.py: get_edges_features_matrix_numba, calculate_constitutive_matrices, calculate_acceleration", "conmech/dynamics/statement.py: DynamicVelocityStatement, QuasistaticVelocityStatement", "conmech/simulations/problem_solver.py: TimeDependentSolver.solve", "conmech/state/state.py: set_velocity", "conmech/scene/body_forces.py: BodyForces.integrate, get_surface_per_boundary_node_numba", "conmech/simulations/problem_solver.py: WaveSolver.solve", "conmech/simulations/problem_solver.py: StaticSolver.solve, PoissonSolver.solve"]}
{"id": "C125", "title": "Results do not depend on the units of measurement", "statement": "When everything about an elastic body is given in other units of length, time and mass (coordinates of the nodes, density, coefficients of elasticity and viscosity, loads, initial displacements and velocities, time step), every state returned by `solve` of a dynamic or quasistatic problem without contact is the same state in the other units: its time is multiplied by the factor for times, its displacements by that for lengths and its velocities by that for velocities. The same holds for the displacement returned for a static problem, also with prescribed displacements. The assembled matrices and loads are multiplied by the factors of their units, in the plane and, for the matrices, in space.", "quantifier": "for all positive factors for time, all nonzero factors for length and mass (length positive for loads and in space), all meshes of non-degenerate triangles or tetrahedra (simulations end to end for triangles), densities and coefficients, supports without motion, time-dependent loads, initial states, positive time steps, numbers of steps and output lists; systems solved exactly; quasistatic bodies held by their supports", "why_tests_cant": "A test compares two runs in two systems of units up to rounding; the claim is about all units and all states of all runs, and a constant with a hidden dimension shows only in units in which it is not negligible.", "anchors": ["conmech/dynamics/factory/_dynamics_factory_2d.py: get_edges_features_matrix_numba, calculate_constitutive_matrices, calculate_acceleration", "conmech/dynamics/factory/_dynamics_factory_3d.py: calculate_constitutive_matrices, calculate_acceleration", "conmech/dynamics/statement.py: DynamicVelocityStatement, QuasistaticVelocityStatement", "conmech/simulations/problem_solver.py: TimeDependentSolver.solve", "conmech/scene/body_forces.py: BodyForces.integrate", "conmech/state/state.py: set_velocity", "conmech/simulations/problem_solver.py: StaticSolver.solve"]}
