{
 "claims": [
  {
   "property": "C01",
   "status": "proved",
   "theorems": [
    "Conmech.C01_remove_unconnected_geometry"
   ],
   "note": ""
  },
  {
   "property": "C02",
   "status": "proved",
   "theorems": [
    "Conmech.C02_remove_unconnected_exact",
    "Conmech.C02_remove_unconnected_clean",
    "Conmech.C02_remove_unconnected_idempotent"
   ],
   "note": ""
  },
  {
   "property": "C03",
   "status": "proved",
   "theorems": [
    "Conmech.C03_edges_exact",
    "Conmech.C03_edges_matrix_counts",
    "Conmech.C03_edges_sorted"
   ],
   "note": ""
  },
  {
   "property": "C04",
   "status": "proved",
   "theorems": [
    "Conmech.C04_reorder_geometry",
    "Conmech.C04_reorder_contiguous"
   ],
   "note": ""
  },
  {
   "property": "C05",
   "status": "proved",
   "theorems": [
    "Conmech.C05_layout_sorted",
    "Conmech.C05_layout_renumbering"
   ],
   "note": ""
  },
  {
   "property": "C06",
   "status": "partial",
   "theorems": [
    "Conmech.C06_dirichlet_range",
    "Conmech.C06_ranges_partial",
    "Conmech.C06_contact_range_overlap_wrong",
    "Conmech.C06_shifted",
    "Conmech.C06_surplus",
    "Conmech.C06_contact_range_iff",
    "Conmech.C06_rectangle_wrong"
   ],
   "note": "Dirichlet range always right; contact and Neumann ranges right exactly when no boundary node satisfies both predicates (C06_contact_range_iff). With k such nodes the contact range has k wrong nodes and the Neumann range misses min(k, Neumann nodes) (C06_surplus); wrong on every generated rectangle with both predicates at a corner (C06_rectangle_wrong)."
  },
  {
   "property": "C07",
   "status": "proved",
   "theorems": [
    "Conmech.C07_boundary_surfaces_exact",
    "Conmech.C07_boundary_surfaces_nodup",
    "Conmech.C07_interior_vertex",
    "Conmech.C07_boundary_nodes_exact"
   ],
   "note": ""
  },
  {
   "property": "C08",
   "status": "proved",
   "theorems": [
    "Conmech.C08_classification_exact",
    "Conmech.C08_classification_total",
    "Conmech.C08_own_boundary"
   ],
   "note": ""
  },
  {
   "property": "C09",
   "status": "partial",
   "theorems": [
    "Conmech.C09_ranges_partition_partial",
    "Conmech.C09_free_count_partial",
    "Conmech.C09_free_count",
    "Conmech.C09_free_count_wrong",
    "Conmech.C09_inner_count",
    "Conmech.C09_node_ranges_partial",
    "Conmech.C09_boundary_range_iff",
    "Conmech.C09_boundary_range_wrong",
    "Conmech.C09_partition_overlap_wrong"
   ],
   "note": "Partition needs disjoint predicates (C09_partition_overlap_wrong). free_nodes_count is wrong whenever a Dirichlet node exists (C09_free_count_wrong); boundary_indices is right exactly when no Dirichlet or no internal node exists (C09_boundary_range_iff, C09_boundary_range_wrong)."
  },
  {
   "property": "C10",
   "status": "partial",
   "theorems": [
    "Conmech.C10_normal_2d",
    "Conmech.C10_normal_3d",
    "Conmech.C10_mesh_2d_partial",
    "Conmech.C10_double_surface_error",
    "Conmech.C10_mesh_3d_partial",
    "Conmech.C10_zero_normal_wrong"
   ],
   "note": "Per-surface normals correct in 2D and 3D. Mesh-level statement needs the type-grouped surface list to be in discovery order; otherwise false (C10_zero_normal_wrong), and construction fails for a surface that is both contact and Dirichlet (C10_double_surface_error)."
  },
  {
   "property": "C11",
   "status": "proved",
   "theorems": [
    "Conmech.C11_boundary_dofs",
    "Conmech.C11_slices_same_length",
    "Conmech.C11_boundary_dofs_nodup",
    "Conmech.C11_boundary_dofs_mem"
   ],
   "note": ""
  },
  {
   "property": "C12",
   "status": "proved",
   "theorems": [
    "Conmech.C12_elimination_equivalent"
   ],
   "note": ""
  },
  {
   "property": "C13",
   "status": "proved",
   "theorems": [
    "Conmech.C13_symmetric",
    "Conmech.C13_nonneg",
    "Conmech.C13_positive",
    "Conmech.C13_energy_minimisers"
   ],
   "note": ""
  },
  {
   "property": "C14",
   "status": "partial",
   "theorems": [
    "Conmech.C14_all_at_once_partial",
    "Conmech.C14_conflict_wrong"
   ],
   "note": "Proved when boundaries agree where they overlap; C14_conflict_wrong shows the full statement is false for conflicting values."
  },
  {
   "property": "C15",
   "status": "partial",
   "theorems": [
    "Conmech.C15_found_names",
    "Conmech.C15_numbered_imposed_partial",
    "Conmech.C15_registered_names",
    "Conmech.C15_default_numbered_ignored_wrong",
    "Conmech.C15_temperature_wrong",
    "Conmech.C15_empty_hides_later_wrong",
    "Conmech.C15_no_condition_error",
    "Conmech.C15_neumann_error"
   ],
   "note": "For the default name only the boundary called dirichlet is imposed (numbered ones are ignored: C15_default_numbered_ignored_wrong); under other names exactly the numbered boundaries up to the first missing or empty one are found (C15_empty_hides_later_wrong). Missing conditions and reserved names end in an error."
  },
  {
   "property": "C16",
   "status": "proved",
   "theorems": [
    "Conmech.C16_solution_satisfies_dirichlet",
    "Conmech.C16_exact_solution_kept"
   ],
   "note": ""
  },
  {
   "property": "C17",
   "status": "proved",
   "theorems": [
    "Conmech.C17_stack_entry",
    "Conmech.C17_unstack_stack",
    "Conmech.C17_stack_unstack",
    "Conmech.C17_state_layout"
   ],
   "note": ""
  },
  {
   "property": "C18",
   "status": "proved",
   "theorems": [
    "Conmech.C18_recovered_solves",
    "Conmech.C18_solution_restricts",
    "Conmech.C18_initial_guess",
    "Conmech.C18_driving_vector",
    "Conmech.C18_three_dim_wrong"
   ],
   "note": "For one and two unknowns per node, and for driving vectors. In three dimensions the merge of contact and free values uses a wrong layout: C18_three_dim_wrong."
  },
  {
   "property": "C19",
   "status": "proved",
   "theorems": [
    "Conmech.C19_recovered_minimises",
    "Conmech.C19_minimiser_restricts"
   ],
   "note": ""
  },
  {
   "property": "C20",
   "status": "partial",
   "theorems": [
    "Conmech.C20_condensed_current_partial",
    "Conmech.C20_condensed_iff",
    "Conmech.C20_relaxation_wrong"
   ],
   "note": "Proved for every history of steps for all statements except relaxation, for which C20_relaxation_wrong shows that the condensed matrix is stale."
  },
  {
   "property": "C21",
   "status": "proved",
   "theorems": [
    "Conmech.C21_nodal_basis",
    "Conmech.C21_sum_zero",
    "Conmech.C21_affine_exact",
    "Conmech.C21_order",
    "Conmech.C21_every_values"
   ],
   "note": ""
  },
  {
   "property": "C22",
   "status": "proved",
   "theorems": [
    "Conmech.C22_nodal_basis",
    "Conmech.C22_sum_zero",
    "Conmech.C22_affine_exact",
    "Conmech.C22_order",
    "Conmech.C22_every_values"
   ],
   "note": ""
  },
  {
   "property": "C23",
   "status": "proved",
   "theorems": [
    "Conmech.C23_product",
    "Conmech.C23_area",
    "Conmech.C23_volume",
    "Conmech.C23_order",
    "Conmech.C23_total2",
    "Conmech.C23_total3",
    "Conmech.C23_mass2",
    "Conmech.C23_mass3",
    "Conmech.C23_mass_form2"
   ],
   "note": ""
  },
  {
   "property": "C24",
   "status": "proved",
   "theorems": [
    "Conmech.C24_transpose2",
    "Conmech.C24_constants2",
    "Conmech.C24_transpose3",
    "Conmech.C24_constants3",
    "Conmech.C24_form"
   ],
   "note": ""
  },
  {
   "property": "C25",
   "status": "proved",
   "theorems": [
    "Conmech.C25_poisson2",
    "Conmech.C25_poisson3"
   ],
   "note": ""
  },
  {
   "property": "C26",
   "status": "proved",
   "theorems": [
    "Conmech.C26_hooke",
    "Conmech.C26_symmetric",
    "Conmech.C26_nonneg",
    "Conmech.C26_definite",
    "Conmech.C26_rigid"
   ],
   "note": ""
  },
  {
   "property": "C27",
   "status": "partial",
   "theorems": [
    "Conmech.C27_symmetric_translation_partial",
    "Conmech.C27_equal_coefficients_partial",
    "Conmech.C27_rotation_wrong"
   ],
   "note": "Symmetry and translations always hold; Hooke energy and rotations hold for mu = lambda. Full statement is false for the code on every mesh whenever mu differs from lambda: C27_rotation_wrong."
  },
  {
   "property": "C28",
   "status": "proved",
   "theorems": [
    "Conmech.C28_power",
    "Conmech.C28_expansion2",
    "Conmech.C28_expansion3",
    "Conmech.C28_no_net_force2",
    "Conmech.C28_no_net_force3",
    "Conmech.C28_conduction2",
    "Conmech.C28_conduction3"
   ],
   "note": ""
  },
  {
   "property": "C29",
   "status": "partial",
   "theorems": [
    "Conmech.C29_unit_density",
    "Conmech.C29_linear",
    "Conmech.C29_form",
    "Conmech.C29_zero_density_partial",
    "Conmech.C29_three_dim_wrong"
   ],
   "note": "Holds for triangular meshes; for tetrahedral meshes local stiffness is None and reassembly fails: C29_three_dim_wrong."
  },
  {
   "property": "C30",
   "status": "proved",
   "theorems": [
    "Conmech.C30_total2",
    "Conmech.C30_total3",
    "Conmech.C30_constant",
    "Conmech.C30_constant_share"
   ],
   "note": ""
  },
  {
   "property": "C31",
   "status": "proved",
   "theorems": [
    "Conmech.C31_weights",
    "Conmech.C31_sizes",
    "Conmech.C31_integrate"
   ],
   "note": ""
  },
  {
   "property": "C32",
   "status": "partial",
   "theorems": [
    "Conmech.C32_new_time_partial",
    "Conmech.C32_requests_partial",
    "Conmech.C32_clear_wrong",
    "Conmech.C32_source_wrong",
    "Conmech.C32_nodes_wrong"
   ],
   "note": "Holds for histories of requests with unchanged source and nodes, and for any request at a new time. Full statement is false for the code: C32_clear_wrong, C32_source_wrong, C32_nodes_wrong."
  },
  {
   "property": "C33",
   "status": "partial",
   "theorems": [
    "Conmech.C33_requests_partial",
    "Conmech.C33_new_tensor_partial",
    "Conmech.C33_reassembly_wrong"
   ],
   "note": "Holds for histories without reassembly after the first request, and for any request with a new tensor. Full statement is false for the code: C33_reassembly_wrong."
  },
  {
   "property": "C34",
   "status": "proved",
   "theorems": [
    "Conmech.C34_heat_any",
    "Conmech.C34_static",
    "Conmech.C34_poisson",
    "Conmech.C34_quasistatic",
    "Conmech.C34_dynamic",
    "Conmech.C34_dynamic_temperature",
    "Conmech.C34_wave",
    "Conmech.C34_heat",
    "Conmech.C34_relaxation"
   ],
   "note": "Time-dependent displacement statements on plane meshes (see C59 for space)."
  },
  {
   "property": "C35",
   "status": "partial",
   "theorems": [
    "Conmech.C35_potential",
    "Conmech.C35_quasistatic",
    "Conmech.C35_dynamic",
    "Conmech.C35_adjoint",
    "Conmech.C35_opposite_signs_wrong",
    "Conmech.C35_dynamic_uncoupled_wrong"
   ],
   "note": "Equations of the three statements and adjointness are proved; the uniform sign convention and the coupling of the dynamic problem class are false for the code: C35_opposite_signs_wrong, C35_dynamic_uncoupled_wrong."
  },
  {
   "property": "C36",
   "status": "proved",
   "theorems": [
    "Conmech.C36_velocity",
    "Conmech.C36_displacement",
    "Conmech.C36_vectors",
    "Conmech.C36_time_dependent",
    "Conmech.C36_wave",
    "Conmech.C36_coupled",
    "Conmech.C36_relaxation"
   ],
   "note": "Time, displacement (absement for relaxation) and agreement of the vectors of the solver with the state, for every number of steps and arbitrary step results; uncoupled and coupled solvers."
  },
  {
   "property": "C37",
   "status": "partial",
   "theorems": [
    "Conmech.C37_time_dependent_partial",
    "Conmech.C37_relaxation_partial",
    "Conmech.C37_wave_partial",
    "Conmech.C37_default",
    "Conmech.C37_unsorted_wrong",
    "Conmech.C37_coupled_partial"
   ],
   "note": "Proved for non-decreasing output steps, for all time-dependent solvers, including product data. For decreasing output steps the code does not return the state of the requested step (C37_unsorted_wrong)."
  },
  {
   "property": "C38",
   "status": "partial",
   "theorems": [
    "Conmech.C38_coupled_wrong",
    "Conmech.C38_wave_partial",
    "Conmech.C38_reset_partial",
    "Conmech.C38_first_step_wrong",
    "Conmech.C38_twice_wrong"
   ],
   "note": "Proved for the wave solver and for the other solvers if the clock is reset by hand. False otherwise: the clock is kept while the new state starts at zero (C38_first_step_wrong, C38_twice_wrong, C38_coupled_wrong)."
  },
  {
   "property": "C39",
   "status": "partial",
   "theorems": [
    "Conmech.C39_resume_partial",
    "Conmech.C39_products_wrong"
   ],
   "note": "Proved for runs without products. Resuming from a returned state with products fails, because a copied product has no rule (C39_products_wrong)."
  },
  {
   "property": "C40",
   "status": "proved",
   "theorems": [
    "Conmech.C40_passes",
    "Conmech.C40_stops",
    "Conmech.C40_terminates",
    "Conmech.C40_consistent"
   ],
   "note": "Number of passes, termination and final vectors for any results and any residuals."
  },
  {
   "property": "C41",
   "status": "partial",
   "theorems": [
    "Conmech.C41_update",
    "Conmech.C41_history",
    "Conmech.C41_after_one",
    "Conmech.C41_solve_partial",
    "Conmech.C41_static",
    "Conmech.C41_initial_wrong"
   ],
   "note": "Right after every event that computes a displacement and for all states returned after at least one step. False for output step 0 with a non-zero initial displacement (C41_initial_wrong)."
  },
  {
   "property": "C42",
   "status": "partial",
   "theorems": [
    "Conmech.C42_first_partial",
    "Conmech.C42_stale_wrong",
    "Conmech.C42_copy"
   ],
   "note": "Proved for the first request. Later requests return the first stress for ever (C42_stale_wrong)."
  },
  {
   "property": "C43",
   "status": "partial",
   "theorems": [
    "Conmech.C43_values_partial",
    "Conmech.C43_independent_partial",
    "Conmech.C43_same_values",
    "Conmech.C43_body_state_wrong",
    "Conmech.C43_shared_vector_wrong",
    "Conmech.C43_reused_vector_wrong",
    "Conmech.C43_products_partial",
    "Conmech.C43_copied_product_wrong",
    "Conmech.C43_scalar_products_wrong"
   ],
   "note": "Any number of states and copies, arrays as shared objects; proved for callers that do not hand one array to two states (or twice to one). Otherwise false: C43_shared_vector_wrong, C43_reused_vector_wrong. Copied products cannot be updated (C43_copied_product_wrong), temperature and piezoelectric copies have no products (C43_scalar_products_wrong), the body is redirected (C43_body_state_wrong)."
  },
  {
   "property": "C44",
   "status": "partial",
   "theorems": [
    "Conmech.C44_success_partial",
    "Conmech.C44_failure_wrong",
    "Conmech.C44_retry_wrong"
   ],
   "note": "Proved if writing succeeds. If it fails sources, setup and law are lost (C44_failure_wrong)."
  },
  {
   "property": "C45",
   "status": "proved",
   "theorems": [
    "Conmech.C45_isinstance",
    "Conmech.C45_kind_of_problem",
    "Conmech.C45_case_insensitive",
    "Conmech.C45_no_replacement",
    "Conmech.C45_taken_fails",
    "Conmech.C45_history",
    "Conmech.C45_unknown_name",
    "Conmech.C45_conmech_registers",
    "Conmech.C45_printed_name"
   ],
   "note": ""
  },
  {
   "property": "C46",
   "status": "partial",
   "theorems": [
    "Conmech.C46_step_succeeds_partial",
    "Conmech.C46_relaxed_global_wrong"
   ],
   "note": "All registered solvers except the global one for relaxation; that one fails in every state: C46_relaxed_global_wrong."
  },
  {
   "property": "C47",
   "status": "proved",
   "theorems": [
    "Conmech.C47_nonneg",
    "Conmech.C47_zero_iff",
    "Conmech.C47_value",
    "Conmech.C47_subgradient",
    "Conmech.C47_convex",
    "Conmech.C47_monotone",
    "Conmech.C47_derivative",
    "Conmech.C47_continuous"
   ],
   "note": ""
  },
  {
   "property": "C48",
   "status": "partial",
   "theorems": [
    "Conmech.C48_quadrature",
    "Conmech.C48_constant",
    "Conmech.C48_additive",
    "Conmech.C48_order",
    "Conmech.C48_energy",
    "Conmech.C48_length_partial",
    "Conmech.C48_three_dim_wrong",
    "Conmech.C48_contact_convex",
    "Conmech.C48_density_convex",
    "Conmech.C48_convex",
    "Conmech.C48_slope_convex",
    "Conmech.C48_unique"
   ],
   "note": "Partial: in space the weight of a contact triangle is not its area (C48_three_dim_wrong); C48_length_partial covers the plane."
  },
  {
   "property": "C49",
   "status": "partial",
   "theorems": [
    "Conmech.C49_contact_derivative",
    "Conmech.C49_derivative",
    "Conmech.C49_beyond",
    "Conmech.C49_translation_partial",
    "Conmech.C49_uniform_partial",
    "Conmech.C49_gap",
    "Conmech.C49_segment_wrong",
    "Conmech.C49_scalar_wrong",
    "Conmech.C49_equation"
   ],
   "note": "Violated: on a segment with two nodes the gap between derivative and subgradient is given exactly (C49_gap), it is non-zero whenever the law has different slopes at the two nodes (C49_segment_wrong). Scalar problems get a subgradient for vector fields (C49_scalar_wrong). True for directions with constant normal component on each surface and where the slopes at the nodes agree."
  },
  {
   "property": "C50",
   "status": "proved",
   "theorems": [
    "Conmech.C50_range",
    "Conmech.C50_adjacent",
    "Conmech.C50_nested",
    "Conmech.C50_empty"
   ],
   "note": "Products are modelled as association lists with distinct keys."
  },
  {
   "property": "C51",
   "status": "proved",
   "theorems": [
    "Conmech.C51_total",
    "Conmech.C51_reported",
    "Conmech.C51_increasing",
    "Conmech.C51_zeros",
    "Conmech.C51_inside",
    "Conmech.C51_step_wrong",
    "Conmech.C51_limit_points",
    "Conmech.C51_limit_reported",
    "Conmech.C51_tail_wrong"
   ],
   "note": "Every reported limit point is a zero that the scan meets or the result of the root finder between two points of the scan with different signs. Wrong: zeros in the part behind the last point of the scan are missed (C51_tail_wrong), and without a positive step the scan never ends (C51_step_wrong). Observation: the step `len**-1/2` of the caller is 1/(2n)."
  },
  {
   "property": "C52",
   "status": "partial",
   "theorems": [
    "Conmech.C52_cells_partial",
    "Conmech.C52_conforming_partial",
    "Conmech.C52_mesh_partial",
    "Conmech.C52_fine_wrong"
   ],
   "note": "The cross mesh is a valid conforming triangulation if its cells are at least as long as the tolerance 1/10000 of the search for nodes, and not otherwise (C52_fine_wrong)."
  },
  {
   "property": "C53",
   "status": "proved",
   "theorems": [
    "Conmech.C53_conforming",
    "Conmech.C53_volume",
    "Conmech.C53_boundary",
    "Conmech.C53_disjoint",
    "Conmech.C53_covers"
   ],
   "note": "Includes disjointness of the interiors and covering of the cube, over every ordered field."
  },
  {
   "property": "C54",
   "status": "proved",
   "theorems": [
    "Conmech.C54_translate",
    "Conmech.C54_no_position",
    "Conmech.C54_normalize"
   ],
   "note": "Placement moves all nodes; normalisation maps every coordinate onto the unit interval if it is not constant."
  },
  {
   "property": "C55",
   "status": "partial",
   "theorems": [
    "Conmech.C55_operands",
    "Conmech.C55_add",
    "Conmech.C55_dimensions",
    "Conmech.C55_scale",
    "Conmech.C55_entrywise",
    "Conmech.C55_numbers",
    "Conmech.C55_shift",
    "Conmech.C55_copy",
    "Conmech.C55_matmul",
    "Conmech.C55_difference_partial",
    "Conmech.C55_difference_wrong",
    "Conmech.C55_inplace_partial",
    "Conmech.C55_inplace_others",
    "Conmech.C55_inplace_wrong",
    "Conmech.C55_inplace_plain",
    "Conmech.C55_block"
   ],
   "note": "Wrong: in-place operators return nothing, so the variable loses the operator (C55_inplace_wrong), and there is no subtraction (C55_difference_wrong). Proved: sums, scalings, shifts, products, copies and blocks give the right operators and no program without in-place operators changes an operator."
  },
  {
   "property": "C56",
   "status": "proved",
   "theorems": [
    "Conmech.C56_rejected",
    "Conmech.C56_accepted",
    "Conmech.C56_defaults"
   ],
   "note": "The check is in init; constructing the configuration does not raise. Files in the way of the directory are the other reason for an exception."
  },
  {
   "property": "C57",
   "status": "proved",
   "theorems": [
    "Conmech.C57_value",
    "Conmech.C57_no_contact",
    "Conmech.C57_history"
   ],
   "note": "The recorded value is the least vertical position of the contact nodes, for bodies with contact nodes."
  },
  {
   "property": "C58",
   "status": "partial",
   "theorems": [
    "Conmech.C58_direct_partial",
    "Conmech.C58_optimization_wrong",
    "Conmech.C58_registered_wrong",
    "Conmech.C58_with_law",
    "Conmech.C58_attributes",
    "Conmech.C58_direct_law",
    "Conmech.C58_package_laws"
   ],
   "note": "Violated: only the direct solver can be constructed without contact law (C58_optimization_wrong, C58_registered_wrong)."
  },
  {
   "property": "C59",
   "status": "partial",
   "theorems": [
    "Conmech.C59_all_coordinates_partial",
    "Conmech.C59_three_dim_wrong",
    "Conmech.C59_falls_wrong",
    "Conmech.C59_quasistatic_wrong"
   ],
   "note": "Static statement in every dimension, others on plane meshes; C59_three_dim_wrong shows the third coordinate unconstrained for every time-dependent statement. C59_falls_wrong and C59_quasistatic_wrong show what follows for all bodies in space: clamped bodies fall as if free, quasistatic systems are singular."
  },
  {
   "property": "C60",
   "status": "partial",
   "theorems": [
    "Conmech.C60_velocity_partial",
    "Conmech.C60_displacement_partial",
    "Conmech.C60_ready",
    "Conmech.C60_direct_wrong",
    "Conmech.C60_coupled"
   ],
   "note": "Uncoupled solvers with optimisation: time at the beginning of a step; coupled: time at its end, in every pass. The direct solver uses the force at time zero in every step (C60_direct_wrong)."
  },
  {
   "property": "C61",
   "status": "partial",
   "theorems": [
    "Conmech.C61_current_system_partial",
    "Conmech.C61_static",
    "Conmech.C61_direct_wrong",
    "Conmech.C61_direct_stale_wrong"
   ],
   "note": "All time-dependent solvers except direct; the direct solver keeps its first system for ever: C61_direct_wrong, C61_direct_stale_wrong."
  },
  {
   "property": "C62",
   "status": "proved",
   "theorems": [
    "Conmech.C62_isotropic",
    "Conmech.C62_relaxation"
   ],
   "note": ""
  },
  {
   "property": "C63",
   "status": "proved",
   "theorems": [
    "Conmech.C63_form",
    "Conmech.C63_rigid",
    "Conmech.C63_permittivity"
   ],
   "note": ""
  },
  {
   "property": "C64",
   "status": "partial",
   "theorems": [
    "Conmech.C64_derivative_partial",
    "Conmech.C64_derivative_wrong",
    "Conmech.C64_static_wrong"
   ],
   "note": "Violated: C64_derivative_wrong, C64_static_wrong; true where the normal static displacement is one."
  },
  {
   "property": "C65",
   "status": "partial",
   "theorems": [
    "Conmech.C65_derivative_partial",
    "Conmech.C65_continuous_partial",
    "Conmech.C65_jump_wrong",
    "Conmech.C65_bounded_wrong"
   ],
   "note": "Violated: C65_jump_wrong, C65_bounded_wrong."
  },
  {
   "property": "C66",
   "status": "partial",
   "theorems": [
    "Conmech.C66_same_field",
    "Conmech.C66_condensed_partial",
    "Conmech.C66_dirichlet_wrong"
   ],
   "note": "Violated for Dirichlet nodes on contact surfaces in static problems: C66_dirichlet_wrong."
  },
  {
   "property": "C67",
   "status": "partial",
   "theorems": [
    "Conmech.C67_scalar",
    "Conmech.C67_positive_side_partial",
    "Conmech.C67_negative_side_wrong"
   ],
   "note": "Violated: C67_negative_side_wrong; C67_scalar says exactly what the law is given."
  },
  {
   "property": "C68",
   "status": "partial",
   "theorems": [
    "Conmech.C68_timestamps_partial",
    "Conmech.C68_named",
    "Conmech.C68_processes_partial",
    "Conmech.C68_shared_wrong"
   ],
   "note": "Wrong: the default time stamp is evaluated once when the class is defined (C68_shared_wrong)."
  },
  {
   "property": "C69",
   "status": "proved",
   "theorems": [
    "Conmech.C69_disjoint",
    "Conmech.C69_conforming",
    "Conmech.C69_boundary",
    "Conmech.C69_nodes",
    "Conmech.C69_volume"
   ],
   "note": "Conformity, position of boundary nodes and disjointness of the interiors (over every ordered field), by evaluation of the whole table in the kernel."
  },
  {
   "property": "C70",
   "status": "partial",
   "theorems": [
    "Conmech.C70_sides_partial",
    "Conmech.C70_perimeter_wrong"
   ],
   "note": "Wrong: the bound holds for the sides of the elements, not for their perimeter (C70_perimeter_wrong)."
  },
  {
   "property": "C71",
   "status": "proved",
   "theorems": [
    "Conmech.C71_dynamic",
    "Conmech.C71_wave",
    "Conmech.C71_quasistatic",
    "Conmech.C71_exact",
    "Conmech.C71_contact",
    "Conmech.C71_cost",
    "Conmech.C71_slope",
    "Conmech.C71_operators2",
    "Conmech.C71_operators3",
    "Conmech.C71_space",
    "Conmech.C71_wave_space"
   ],
   "note": "What step_solver.solve returns is an assumption of the run theorems (PassiveSolve); C71_exact and C71_contact reduce it to exact solutions or minimisers of the code's cost functional, C71_cost and C71_slope show that the cost functional of the code has the required property. The direct solver is excluded (its right-hand side lags, C60). C71_space: dynamic runs in space without contact, for 0 <= lambda <= mu."
  },
  {
   "property": "C72",
   "status": "partial",
   "theorems": [
    "Conmech.C72_steps",
    "Conmech.C72_dynamic",
    "Conmech.C72_wave",
    "Conmech.C72_rigid2",
    "Conmech.C72_space_partial",
    "Conmech.C72_rotation_wrong",
    "Conmech.C72_wave_space"
   ],
   "note": "Partial because of bodies in space: there rotations meet elastic forces unless mu = lambda (C72_rotation_wrong); translations are covered (C72_space_partial). In the plane everything is proved (C72_steps, C72_dynamic, C72_wave, C72_rigid2). Assumes that the systems are solved exactly (ExactSolve); C74 shows that exact solutions exist. The direct solver is excluded."
  },
  {
   "property": "C73",
   "status": "proved",
   "theorems": [
    "Conmech.C73_dynamic",
    "Conmech.C73_wave",
    "Conmech.C73_quasistatic",
    "Conmech.C73_mass3",
    "Conmech.C73_space",
    "Conmech.C73_wave_space"
   ],
   "note": "Same assumptions as C71, plus a definite mass or viscosity matrix (C74_mass2, C74_elastic2, C73_mass3). C73_space: bodies in space, for 0 <= lambda <= mu."
  },
  {
   "property": "C74",
   "status": "proved",
   "theorems": [
    "Conmech.C74_heat",
    "Conmech.C74_definite",
    "Conmech.C74_poisson2",
    "Conmech.C74_poisson3",
    "Conmech.C74_elastic2",
    "Conmech.C74_mass2",
    "Conmech.C74_elasticity2",
    "Conmech.C74_scalar2",
    "Conmech.C74_unsupported",
    "Conmech.C74_space",
    "Conmech.C74_scalar3"
   ],
   "note": "Full statement for triangular meshes; C74_poisson3 also gives Poisson problems on tetrahedral meshes, C74_space dynamic problems on them."
  },
  {
   "property": "C75",
   "status": "proved",
   "theorems": [
    "Conmech.C75_static",
    "Conmech.C75_static_again",
    "Conmech.C75_poisson",
    "Conmech.C75_poisson_again"
   ],
   "note": "Every registered static solver; exact backend as hypothesis (only for the system the solver holds); C74 gives unique solvability for plane elastic bodies and scalar problems."
  },
  {
   "property": "C76",
   "status": "partial",
   "theorems": [
    "Conmech.C76_backend",
    "Conmech.C76_default",
    "Conmech.C76_functional",
    "Conmech.C76_options_partial",
    "Conmech.C76_limit_wrong",
    "Conmech.C76_gradiented_wrong",
    "Conmech.C76_runner_partial",
    "Conmech.C76_coupled_wrong",
    "Conmech.C76_default_limit_partial",
    "Conmech.C76_default_limit_wrong"
   ],
   "note": "Recognition, default and functional hold in general. Violated: Adam and the discontinuous gradient method change the limit, 'gradiented' is case sensitive, runners of coupled problems drop all options, and the default limit of plane displacement problems does not grow with the number of unknowns."
  },
  {
   "property": "C77",
   "status": "partial",
   "theorems": [
    "Conmech.C77_plane_partial",
    "Conmech.C77_scalar_wrong",
    "Conmech.C77_space_wrong",
    "Conmech.C77_no_contact_wrong"
   ],
   "note": "Holds with two unknowns per node; violated for scalar problems, in space and without contact nodes. The unknown is the velocity in time-dependent problems."
  },
  {
   "property": "C78",
   "status": "partial",
   "theorems": [
    "Conmech.C78_reads",
    "Conmech.C78_system_partial",
    "Conmech.C78_space_partial",
    "Conmech.C78_mass",
    "Conmech.C78_space_wrong",
    "Conmech.C78_density_wrong",
    "Conmech.C78_annotation_wrong"
   ],
   "note": "Full statement for plane meshes except the density of piezoelectric bodies; in space without relaxation and piezoelectric problems. Violated for the density, for those two kinds in space and for the wide problem class in the signature of TimeDependentSolver."
  },
  {
   "property": "C79",
   "status": "partial",
   "theorems": [
    "Conmech.C79_loads_partial",
    "Conmech.C79_mixed",
    "Conmech.C79_zero_partial",
    "Conmech.C79_forces_wrong",
    "Conmech.C79_temperature_wrong",
    "Conmech.C79_wave_wrong",
    "Conmech.C79_wave_partial"
   ],
   "note": "Holds for sources that can be called with two positional arguments; the defaults of the base classes cannot be used: forces raise TypeError, temperatures have the wrong shape."
  },
  {
   "property": "C80",
   "status": "partial",
   "theorems": [
    "Conmech.C80_schur_partial",
    "Conmech.C80_direct_partial",
    "Conmech.C80_optimization_wrong",
    "Conmech.C80_direct_wrong"
   ],
   "note": "'schur' and 'global' exist for every kind, 'direct' exactly for static and dynamic problems, 'optimization' for none."
  },
  {
   "property": "C81",
   "status": "partial",
   "theorems": [
    "Conmech.C81_shown_partial",
    "Conmech.C81_label",
    "Conmech.C81_finished_partial",
    "Conmech.C81_exact_partial",
    "Conmech.C81_origin_wrong",
    "Conmech.C81_overflow_wrong"
   ],
   "note": "Exact below 1000 points; in general every finished plot shows the recorded points plus 100 at the origin per filled buffer. Violated from 1000 points on."
  },
  {
   "property": "C82",
   "status": "partial",
   "theorems": [
    "Conmech.C82_limits_partial",
    "Conmech.C82_chosen",
    "Conmech.C82_later_wrong",
    "Conmech.C82_edges",
    "Conmech.C82_forces_partial",
    "Conmech.C82_forces_wrong",
    "Conmech.C82_dirichlet_partial",
    "Conmech.C82_dirichlet_wrong"
   ],
   "note": "Limits, edges and force arrows hold for the first drawing; later drawings keep the first limits and arrows, and arrows of fixed nodes are right only for two nodes."
  },
  {
   "property": "C83",
   "status": "partial",
   "theorems": [
    "Conmech.C83_columns_iff",
    "Conmech.C83_columns_partial",
    "Conmech.C83_columns_wrong",
    "Conmech.C83_columns_call",
    "Conmech.C83_columns_arguments",
    "Conmech.C83_plot_wrong",
    "Conmech.C83_plot_partial"
   ],
   "note": "plot_in_columns works exactly for even numbers of states; plot fails always."
  },
  {
   "property": "C84",
   "status": "partial",
   "theorems": [
    "Conmech.C84_number",
    "Conmech.C84_ends_partial",
    "Conmech.C84_inside",
    "Conmech.C84_spacing_partial",
    "Conmech.C84_values",
    "Conmech.C84_small_wrong"
   ],
   "note": "Holds from a height of 1/N on (N nodes); below, one sample or none. The interpolation by matplotlib is a parameter."
  },
  {
   "property": "C85",
   "status": "partial",
   "theorems": [
    "Conmech.C85_last",
    "Conmech.C85_all_partial",
    "Conmech.C85_limit_points_wrong",
    "Conmech.C85_rounded_wrong"
   ],
   "note": "Products with different names are kept; the names of sections and limit points collide."
  },
  {
   "property": "C86",
   "status": "proved",
   "theorems": [
    "Conmech.C86_generated",
    "Conmech.C86_blocks2",
    "Conmech.C86_blocks3",
    "Conmech.C86_poisson2",
    "Conmech.C86_poisson3",
    "Conmech.C86_elastic2",
    "Conmech.C86_elastic3",
    "Conmech.C86_heating",
    "Conmech.C86_static",
    "Conmech.C86_poisson"
   ],
   "note": "Blocks, Poisson, conductivity and elasticity rows in 2D and 3D, thermal forces of uniform temperatures, the results of the static solvers, and generated meshes."
  },
  {
   "property": "C87",
   "status": "partial",
   "theorems": [
    "Conmech.C87_nodes_partial",
    "Conmech.C87_connected_partial",
    "Conmech.C87_dirichlet_partial"
   ],
   "note": "For cells not shorter than the tolerance 1/10000 of the search for nodes."
  },
  {
   "property": "C88",
   "status": "partial",
   "theorems": [
    "Conmech.C88_loss",
    "Conmech.C88_derivative_partial",
    "Conmech.C88_balance",
    "Conmech.C88_half_wrong",
    "Conmech.C88_depth_wrong",
    "Conmech.C88_free"
   ],
   "note": "The derivative formula, the balance at minimisers and the case without contact are proved; the reaction is half of what the law says (C88_half_wrong) and for the damped law independent of the depth (C88_depth_wrong)."
  },
  {
   "property": "C89",
   "status": "proved",
   "theorems": [
    "Conmech.C89_variational",
    "Conmech.C89_stable",
    "Conmech.C89_unique_minimiser",
    "Conmech.C89_elasticity2",
    "Conmech.C89_slope",
    "Conmech.C89_space",
    "Conmech.C89_space_stable"
   ],
   "note": "Existence over the reals with the exact square root; uniqueness, the variational inequality and stability for all ordered fields. Laws with friction are covered as far as their density is convex (hypothesis hg). In space (C89_space, C89_space_stable) for static problems of clamped bodies with 0 < lambda <= mu, since the elastic energy of the code is not bounded below in general otherwise (C120)."
  },
  {
   "property": "C90",
   "status": "partial",
   "theorems": [
    "Conmech.C90_similar2",
    "Conmech.C90_similar3",
    "Conmech.C90_poisson",
    "Conmech.C90_elasticity2",
    "Conmech.C90_elasticity3_partial",
    "Conmech.C90_rotation3_wrong",
    "Conmech.C90_order",
    "Conmech.C90_relabel",
    "Conmech.C90_rows"
   ],
   "note": "Plane: all parts proved. Space: everything except the elastic energy for different coefficients, which changes under a quarter turn because the coefficients in calculate_constitutive_matrices are misplaced (C90_rotation3_wrong, same cause as C27)."
  },
  {
   "property": "C91",
   "status": "partial",
   "theorems": [
    "Conmech.C91_gradient_partial",
    "Conmech.C91_gradient_wrong",
    "Conmech.C91_mean_partial",
    "Conmech.C91_bounds_partial",
    "Conmech.C91_affine_partial",
    "Conmech.C91_sign_wrong",
    "Conmech.C91_viscoelastic_partial",
    "Conmech.C91_symmetric",
    "Conmech.C91_rigid",
    "Conmech.C91_work_partial",
    "Conmech.C91_relaxation_partial",
    "Conmech.C91_elastic_relaxation_partial",
    "Conmech.C91_bulk_wrong"
   ],
   "note": "Violated: calculate_dx_dy returns minus the gradient, so all recovered gradients and stresses have the wrong sign (C91_gradient_wrong, C91_sign_wrong), and the relaxation stress ignores the bulk part of the tensor (C91_bulk_wrong). The partial theorems state everything up to the sign; symmetry and rigid motions hold as stated."
  },
  {
   "property": "C92",
   "status": "partial",
   "theorems": [
    "Conmech.C92_seed_partial",
    "Conmech.C92_far_wrong",
    "Conmech.C92_scaled_wrong",
    "Conmech.C92_axis",
    "Conmech.C92_scale",
    "Conmech.C92_scale_position",
    "Conmech.C92_centre",
    "Conmech.C92_centre_position"
   ],
   "note": "Seeds are right if two nodes are less than one apart after projection; otherwise the first node is returned twice (C92_far_wrong), so the result depends on the unit of length (C92_scaled_wrong). Axis, extent and centring proved in full."
  },
  {
   "property": "C93",
   "status": "partial",
   "theorems": [
    "Conmech.C93_space",
    "Conmech.C93_plane",
    "Conmech.C93_error",
    "Conmech.C93_dimension",
    "Conmech.C93_area_partial",
    "Conmech.C93_area_wrong",
    "Conmech.C93_mixed_wrong"
   ],
   "note": "Elements, dimension and errors proved for all files. Violated for surfaces in space, whose triangles shrink by projection (C93_area_wrong), and for files with other plane cells, which are left out silently (C93_mixed_wrong). meshio's reading of the file is a parameter."
  },
  {
   "property": "C94",
   "status": "partial",
   "theorems": [
    "Conmech.C94_heat",
    "Conmech.C94_energy_partial",
    "Conmech.C94_mesh2",
    "Conmech.C94_mesh3",
    "Conmech.C94_energy_wrong"
   ],
   "note": "Heat is conserved in all returned states whatever the mechanical part does (C94_heat, C94_mesh2, C94_mesh3). The energy of a step falls up to the power exchanged by the change of the temperature in the last pass (C94_energy_partial); it is not bounded if the passes diverge (C94_energy_wrong)."
  },
  {
   "property": "C95",
   "status": "proved",
   "theorems": [
    "Conmech.C95_charge_free",
    "Conmech.C95_neutral",
    "Conmech.C95_electrodes"
   ],
   "note": ""
  },
  {
   "property": "C96",
   "status": "partial",
   "theorems": [
    "Conmech.C96_composite_response",
    "Conmech.C96_composite_potential",
    "Conmech.C96_single_level_wrong",
    "Conmech.C96_partition",
    "Conmech.C96_delamination_continuous",
    "Conmech.C96_delamination_wrong",
    "Conmech.C96_declared_partial",
    "Conmech.C96_heat_exchange_wrong",
    "Conmech.C96_bounded",
    "Conmech.C96_exponential",
    "Conmech.C96_friction_at_rest_wrong",
    "Conmech.C96_slip_weakening",
    "Conmech.C96_slip_convex_wrong",
    "Conmech.C96_linear"
   ],
   "note": "The laws are proved correct where no subderivative is declared; the declared subderivatives of the heat exchange and the delamination law are wrong, see the theorems ending in _wrong. The second responses of nonmonotone laws are the subject of C103."
  },
  {
   "property": "C97",
   "status": "partial",
   "theorems": [
    "Conmech.C97_manufactured",
    "Conmech.C97_lame",
    "Conmech.C97_total",
    "Conmech.C97_temperature",
    "Conmech.C97_relative_wrong",
    "Conmech.C97_total_zero",
    "Conmech.C97_nodal_wrong",
    "Conmech.C97_compare_partial",
    "Conmech.C97_compare_wrong"
   ],
   "note": "The manufactured solution and the total error are proved correct; the nodal errors, the relative error and the comparison of states are not what they are called, see the theorems ending in _wrong. C97_compare_partial says exactly when the comparison vanishes."
  },
  {
   "property": "C98",
   "status": "proved",
   "theorems": [
    "Conmech.C98_comparison",
    "Conmech.C98_poisson",
    "Conmech.C98_monotone",
    "Conmech.C98_heat",
    "Conmech.C98_generated",
    "Conmech.C98_obtuse_wrong",
    "Conmech.C98_short_step_wrong"
   ],
   "note": "C98_comparison, C98_poisson and C98_monotone hold on meshes without obtuse angles, C98_heat under LongEnough; C98_generated says which cross meshes have no obtuse angles; C98_obtuse_wrong and C98_short_step_wrong show that the conditions cannot be dropped. Triangular meshes only; systems are assumed to be solved exactly."
  },
  {
   "property": "C99",
   "status": "partial",
   "theorems": [
    "Conmech.C99_superposition",
    "Conmech.C99_reciprocity",
    "Conmech.C99_reactions",
    "Conmech.C99_least_energy",
    "Conmech.C99_stiffer",
    "Conmech.C99_static_superposition",
    "Conmech.C99_static_reciprocity",
    "Conmech.C99_static_reactions",
    "Conmech.C99_static_stiffer",
    "Conmech.C99_space_partial",
    "Conmech.C99_moment_wrong",
    "Conmech.C99_poisson"
   ],
   "note": "Proved for triangular meshes, for the displacement and temperature that the solvers return. In space reciprocity and the balance of forces are proved (C99_space_partial); the balance of moments fails for every mesh with mu != lambda (C99_moment_wrong), because of the swapped coefficients of the 3D elasticity matrix (C27)."
  },
  {
   "property": "C100",
   "status": "partial",
   "theorems": [
    "Conmech.C100_temperature",
    "Conmech.C100_force_names_partial",
    "Conmech.C100_force_names_wrong",
    "Conmech.C100_sweep_partial",
    "Conmech.C100_sweep_truthful_partial",
    "Conmech.C100_sweep_wrong",
    "Conmech.C100_start_wrong",
    "Conmech.C100_losses_partial",
    "Conmech.C100_losses_wrong",
    "Conmech.C100_penetration_partial",
    "Conmech.C100_penetration_forced_partial",
    "Conmech.C100_penetration_wrong",
    "Conmech.C100_penetration_test_wrong",
    "Conmech.C100_wave_partial",
    "Conmech.C100_wave_three_partial",
    "Conmech.C100_wave_wrong",
    "Conmech.C100_times_partial",
    "Conmech.C100_screws",
    "Conmech.C100_times_wrong"
   ],
   "note": "Full for the temperature example. Partial elsewhere because the code violates the claim: forces that agree in three digits share a file (C100_sweep_wrong, C100_force_names_wrong), a warm start depends on the files (C100_start_wrong), losses of states found in files are dropped (C100_losses_wrong), with a gap in the files the penetration example saves the state of another value (C100_penetration_wrong) and test runs share names with others (C100_penetration_test_wrong), the wave example saves under 0..3 what it looks for under time steps (C100_wave_partial, C100_wave_wrong), and times rounded down get the name of the step before (C100_times_wrong)."
  },
  {
   "property": "C101",
   "status": "partial",
   "theorems": [
    "Conmech.C101_springs",
    "Conmech.C101_held_partial",
    "Conmech.C101_balance",
    "Conmech.C101_supports_wrong",
    "Conmech.C101_reactions",
    "Conmech.C101_nothing",
    "Conmech.C101_pushes",
    "Conmech.C101_no_contact",
    "Conmech.C101_work",
    "Conmech.C101_static_partial",
    "Conmech.C101_support_wrong"
   ],
   "note": "Partial: C101_held_partial and C101_static_partial need that no contact surface has a node with a prescribed value; for such nodes the statement is refuted (C101_supports_wrong in general, C101_support_wrong on a concrete pair of nodes). Least energy holds for all laws; balance and reactions for frictionless laws differentiable at the displacements that occur; reactions in the plane."
  },
  {
   "property": "C102",
   "status": "partial",
   "theorems": [
    "Conmech.C102_segments_partial",
    "Conmech.C102_kinds_partial",
    "Conmech.C102_lengths_partial",
    "Conmech.C102_part_partial",
    "Conmech.C102_load_partial",
    "Conmech.C102_part_wrong"
   ],
   "note": "For cells not shorter than the tolerance of the search for nodes (see C52). Surfaces are classified by their middle, so a part of a side that is shorter than half a cell has no surfaces at all (C102_part_wrong); in general the length is right up to one cell (C102_part_partial)."
  },
  {
   "property": "C103",
   "status": "partial",
   "theorems": [
    "Conmech.C103_composite_partial",
    "Conmech.C103_composite_wrong",
    "Conmech.C103_delamination_partial",
    "Conmech.C103_delamination_wrong"
   ],
   "note": "Proved off the levels (composite) and off half a millimetre (delamination); at these points the code counts a jump on the wrong side, shown by the _wrong theorems."
  },
  {
   "property": "C104",
   "status": "partial",
   "theorems": [
    "Conmech.C104_solutions_partial",
    "Conmech.C104_halved_partial",
    "Conmech.C104_rectangle_partial",
    "Conmech.C104_doubles",
    "Conmech.C104_nested_wrong",
    "Conmech.C104_nested",
    "Conmech.C104_static",
    "Conmech.C104_poisson"
   ],
   "note": "Proved for every pair of nested triangular meshes (C104_nested, C104_static, C104_poisson) and for generated rectangles whose numbers of cells are doubled (C104_rectangle_partial, C104_doubles); C104_solutions_partial shows that the compared problems have solutions. Missing: cells below the node tolerance (C52). Other ratios of side and cell length give meshes that are not nested (C104_nested_wrong)."
  },
  {
   "property": "C105",
   "status": "proved",
   "theorems": [
    "Conmech.C105_dynamic",
    "Conmech.C105_wave",
    "Conmech.C105_free",
    "Conmech.C105_contraction",
    "Conmech.C105_unique",
    "Conmech.C105_exists",
    "Conmech.C105_exact",
    "Conmech.C105_contact",
    "Conmech.C105_law",
    "Conmech.C105_slope",
    "Conmech.C105_converges",
    "Conmech.C105_converges_wave",
    "Conmech.C105_stable",
    "Conmech.C105_body",
    "Conmech.C105_solver",
    "Conmech.C105_runs",
    "Conmech.C105_space",
    "Conmech.C105_wave_space"
   ],
   "note": "The solver is assumed to return the exact minimiser of its cost functional; C105_solver shows that one exists. C105_body and the example after it are end-to-end: assembled triangular mesh, supports, slope law, all time steps. C105_space does the same for tetrahedral meshes without contact. Quasistatic problems are in C106."
  },
  {
   "property": "C106",
   "status": "proved",
   "theorems": [
    "Conmech.C106_contraction",
    "Conmech.C106_unique",
    "Conmech.C106_exists",
    "Conmech.C106_quasistatic",
    "Conmech.C106_converges",
    "Conmech.C106_body",
    "Conmech.C106_solver"
   ],
   "note": "The solver is assumed to return the exact minimiser of its cost functional; C106_solver shows that one exists. C106_body and the example after it are end-to-end: assembled triangular mesh, supports holding all nodes, slope law, all time steps. Contact forces need not be continuous in C106_exists, C106_quasistatic and C106_converges."
  },
  {
   "property": "C107",
   "status": "proved",
   "theorems": [
    "Conmech.C107_dynamic",
    "Conmech.C107_quasistatic",
    "Conmech.C107_body"
   ],
   "note": "The solver is assumed to return the exact minimiser of its cost functional, the static solver to solve its linear system. C107_body and the example after it are end-to-end: assembled triangular mesh, supports holding all nodes, slope law, every time step, and the displacement returned by the static solver. C107_dynamic and C107_quasistatic give explicit rates."
  },
  {
   "property": "C108",
   "status": "partial",
   "theorems": [
    "Conmech.C108_interpolant",
    "Conmech.C108_area",
    "Conmech.C108_mass",
    "Conmech.C108_gradient",
    "Conmech.C108_stiffness",
    "Conmech.C108_poisson",
    "Conmech.C108_elastic",
    "Conmech.C108_forces_partial",
    "Conmech.C108_forces_wrong",
    "Conmech.C108_rectangle_partial"
   ],
   "note": "All matrices of the plane factories, the Poisson and the elasticity matrix are proved to be Lebesgue integrals of the piecewise affine functions, for every mesh of non-degenerate triangles that do not overlap; generated rectangles are filled by their triangles (C108_rectangle_partial: for sizes not below the tolerance 1e-4 of the mesh generator, see C52). The work of inner forces is the integral for forces that are constant on each element; for all other forces it is proved to differ (see the theorems ending in _wrong)."
  },
  {
   "property": "C109",
   "status": "partial",
   "theorems": [
    "Conmech.C109_best",
    "Conmech.C109_estimate",
    "Conmech.C109_rectangle_partial"
   ],
   "note": "Best approximation and the error estimate are proved for all meshes (C109_best, C109_estimate; the size of the error depends on the shape of the triangles through |det| >= kappa h\u00b2). C109_rectangle_partial gives the constants for generated rectangles; missing are perimeters below twice the tolerance 1e-4 of the mesh generator and perimeters larger than a side (see C52). Sources are constant; contact sides are free sides here (no contact law)."
  },
  {
   "property": "C110",
   "status": "partial",
   "theorems": [
    "Conmech.C110_best",
    "Conmech.C110_estimate",
    "Conmech.C110_rectangle_partial"
   ],
   "note": "As C109, for StaticSolver without contact law: C110_best and C110_estimate for all meshes, C110_rectangle_partial for generated rectangles with perimeter not below twice the tolerance of the mesh generator and not larger than a side."
  },
  {
   "property": "C111",
   "status": "proved",
   "theorems": [
    "Conmech.C111_balanced",
    "Conmech.C111_dynamic",
    "Conmech.C111_quasistatic",
    "Conmech.C111_condensed",
    "Conmech.C111_solve",
    "Conmech.C111_healthy",
    "Conmech.C111_dimensions",
    "Conmech.C111_run",
    "Conmech.C111_start",
    "Conmech.C111_scalar_wrong"
   ],
   "note": "Every plane run in velocities with the Schur solver, also with supports at the ends of contact surfaces (C111_run; C111_start for solve; C111_solve for one call; C111_condensed for the condensed cost over every ordered field). C111_balanced, C111_dynamic and C111_quasistatic carry C105 and C106 over to such bodies. The minimiser and the inverse of NumPy are contracts: a minimiser is found if there is one, an inverse if there is one. Not for quasistatic relaxation and static problems, whose solver object never gets the prescribed values (C66_dirichlet_wrong), nor for temperatures (C111_scalar_wrong)."
  },
  {
   "property": "C112",
   "status": "partial",
   "theorems": [
    "Conmech.C112_unique",
    "Conmech.C112_global_solve",
    "Conmech.C112_step",
    "Conmech.C112_start",
    "Conmech.C112_methods_partial",
    "Conmech.C112_dynamic_partial",
    "Conmech.C112_quasistatic_partial",
    "Conmech.C112_supports_wrong"
   ],
   "note": "Partial: with the global method no node of a contact surface may be held; otherwise the two methods return different fields although both minimise exactly what they ask for (C112_supports_wrong on two nodes). Problems in velocities (DynamicVelocityStatement, QuasistaticVelocityStatement) on plane meshes; the system of a step is symmetric and positive on fields that vanish at the supports, which C112_dynamic_partial and C112_quasistatic_partial prove for bodies on triangular meshes. Both runs are assumed to return, which they always do without products (C105_runs)."
  },
  {
   "property": "C113",
   "status": "partial",
   "theorems": [
    "Conmech.C113_found",
    "Conmech.C113_balance_partial",
    "Conmech.C113_reactions",
    "Conmech.C113_moment_wrong",
    "Conmech.C113_equilibrium",
    "Conmech.C113_least",
    "Conmech.C113_end_wrong",
    "Conmech.C113_uniform_partial",
    "Conmech.C113_same_partial",
    "Conmech.C113_without_law",
    "Conmech.C113_without_contact",
    "Conmech.C113_number_wrong",
    "Conmech.C113_general_wrong",
    "Conmech.C113_space_wrong",
    "Conmech.C113_arguments_wrong",
    "Conmech.C113_none_wrong",
    "Conmech.C113_several_wrong"
   ],
   "note": "The contact force of each surface is shared equally by its two nodes, so the moment of the pressures (C113_moment_wrong) and the displacement of least energy (C113_least, C113_end_wrong) are missed unless the pressures at the ends of each surface are equal; for symmetric positive definite systems and convex slope laws there may be no root (C113_none_wrong) or several (C113_several_wrong); held nodes of contact surfaces enter with values off by the contact force (C113_found); displacement, time step, friction and bounds of a law are ignored (C113_arguments_wrong); laws with a general contact condition and bodies in space raise (C113_general_wrong, C113_space_wrong). Proved: balance and reactions of what is found, the case without a law, and agreement with the optimising methods if the pressures at the ends are equal."
  },
  {
   "property": "C114",
   "status": "partial",
   "theorems": [
    "Conmech.C114_obstacle",
    "Conmech.C114_level",
    "Conmech.C114_obstacle_exists",
    "Conmech.C114_heat_exchange",
    "Conmech.C114_foundation",
    "Conmech.C114_linear",
    "Conmech.C114_friction",
    "Conmech.C114_found",
    "Conmech.C114_found_constrained",
    "Conmech.C114_rigid_partial",
    "Conmech.C114_temperature",
    "Conmech.C114_returns",
    "Conmech.C114_temperature_returns",
    "Conmech.C114_constraint_wrong"
   ],
   "note": "Rates for fields and for whole runs of StaticSolver and PoissonSolver, laws of both examples, existence of the runs. Violated part: gaps and normals other than (0,-1) are ignored by the method \"constrained\" (C114_constraint_wrong); C114_rigid_partial has the condition that the normals are (0,-1) and the level is zero."
  },
  {
   "property": "C115",
   "status": "partial",
   "theorems": [
    "Conmech.C115_memory_wrong",
    "Conmech.C115_unique",
    "Conmech.C115_exists",
    "Conmech.C115_step",
    "Conmech.C115_converges_partial",
    "Conmech.C115_body_partial",
    "Conmech.C115_runs"
   ],
   "note": "Partial: relaxation tensors that do not depend on time; for others the property is false (C115_memory_wrong). Plane bodies, supports that do not move, the condensed method (the global one raises, C46). The contact law must not depend on former displacements: law of slope type, and convex laws with the property Instantaneous."
  },
  {
   "property": "C116",
   "status": "proved",
   "theorems": [
    "Conmech.C116_contraction",
    "Conmech.C116_unique",
    "Conmech.C116_exists",
    "Conmech.C116_short",
    "Conmech.C116_together",
    "Conmech.C116_together_unique",
    "Conmech.C116_step",
    "Conmech.C116_converges",
    "Conmech.C116_runs",
    "Conmech.C116_coupling",
    "Conmech.C116_body",
    "Conmech.C116_solver"
   ],
   "note": "Motions, existence, uniqueness, contraction of passes and convergence are proved for bodies with smooth convex contact and heat exchange laws; the mesh version (C116_body) is for slope contact and no heat exchange, as in examples/example_temperature_dynamic.py. Supports and kept temperatures are zero. The contact solver minimises the cost functional, the heat solver solves its system."
  },
  {
   "property": "C117",
   "status": "proved",
   "theorems": [
    "Conmech.C117_contraction",
    "Conmech.C117_unique",
    "Conmech.C117_exists",
    "Conmech.C117_short",
    "Conmech.C117_together",
    "Conmech.C117_together_unique",
    "Conmech.C117_step",
    "Conmech.C117_converges",
    "Conmech.C117_runs",
    "Conmech.C117_coupling",
    "Conmech.C117_body",
    "Conmech.C117_solver"
   ],
   "note": "Motions, existence, uniqueness, contraction of passes and convergence are proved for bodies with convex contact potentials; the mesh version (C117_body) is for the slope law and no surface charges, as in examples/example_piezo_quasistatic.py. Supports are held at zero velocity. The bound on the coupling (C117_coupling) is for coefficients symmetric in displacement component and derivative, as in the example. The contact solver minimises the cost functional, the solver of the potential solves its system. Dynamic piezoelectric problems are not coupled in the code (C35_dynamic_uncoupled_wrong) and not covered."
  },
  {
   "property": "C118",
   "status": "proved",
   "theorems": [
    "Conmech.C118_thermoelastic",
    "Conmech.C118_piezoelectric",
    "Conmech.C118_methods",
    "Conmech.C118_thermoelastic_methods",
    "Conmech.C118_piezoelectric_methods",
    "Conmech.C118_scalar_solve",
    "Conmech.C118_balanced"
   ],
   "note": "The optimiser is a parameter with the contract that it finds a minimiser whenever there is one, the inverse one with the contract of an inverse; `exceeds`, the stopping criterion, is any function of the components of both fields. The obstacle has a convex law that depends on the velocity only (the slope law in the theorems about bodies); the second field has potentials zero, as in the examples of the project. The supports do not move. For the global method no node of a contact surface is held, see C112."
  },
  {
   "property": "C119",
   "status": "proved",
   "theorems": [
    "Conmech.C119_rate",
    "Conmech.C119_table",
    "Conmech.C119_finest",
    "Conmech.C119_self",
    "Conmech.C119_scaled",
    "Conmech.C119_order",
    "Conmech.C119_total",
    "Conmech.C119_reference",
    "Conmech.C119_caption_wrong",
    "Conmech.C119_points"
   ],
   "note": "The finding C119_caption_wrong says that the caption of the table names another reference than the program uses. Rounding of the printed numbers, drawing and the interpolation between meshes are not modelled."
  },
  {
   "property": "C120",
   "status": "partial",
   "theorems": [
    "Conmech.C120_nonneg_partial",
    "Conmech.C120_definite_partial",
    "Conmech.C120_unique_partial",
    "Conmech.C120_static_partial",
    "Conmech.C120_shear_wrong",
    "Conmech.C120_column_wrong",
    "Conmech.C120_unstable_wrong"
   ],
   "note": "Partial because of the mixed-up coefficients of C27. Proved for 0 < lambda <= mu: the matrix stores energy and is definite if the clamped nodes hold all nodes (HeldInSpace), the system has exactly one solution, and the displacement returned by the static solver is the only one of least energy. For every lambda > mu C120_unstable_wrong gives a column clamped at its base whose energy has no lower bound for any loads, and C120_shear_wrong shows that shearing horizontal layers takes lambda instead of mu."
  },
  {
   "property": "C121",
   "status": "proved",
   "theorems": [
    "Conmech.C121_dynamic",
    "Conmech.C121_wave",
    "Conmech.C121_energy",
    "Conmech.C121_viscous",
    "Conmech.C121_phase",
    "Conmech.C121_angle",
    "Conmech.C121_complete",
    "Conmech.C121_wave_complete",
    "Conmech.C121_operators2",
    "Conmech.C121_operators3"
   ],
   "note": "C121_dynamic and C121_wave: amplitudes of the shapes follow their oscillators; C121_complete and C121_wave_complete: such shapes exist for every body and every run is a sum of them; C121_energy, C121_phase, C121_angle: loss of energy and delay of one oscillator; C121_operators2/3: the conditions on the matrices hold on meshes. The system of every step is assumed to be solved exactly."
  },
  {
   "property": "C122",
   "status": "proved",
   "theorems": [
    "Conmech.C122_creep",
    "Conmech.C122_complete",
    "Conmech.C122_settles",
    "Conmech.C122_slower",
    "Conmech.C122_operators2"
   ],
   "note": "C122_creep: amplitudes are divided by 1 + \u03ba dt in every step; C122_complete: such shapes exist for every supported body and every run is a sum of them; C122_slower: bounds for the remaining part; C122_operators2: the conditions on the matrices hold on triangular meshes. The system of every step is assumed to be solved exactly."
  },
  {
   "property": "C123",
   "status": "proved",
   "theorems": [
    "Conmech.C123_decay",
    "Conmech.C123_steady",
    "Conmech.C123_complete",
    "Conmech.C123_settles",
    "Conmech.C123_insulated",
    "Conmech.C123_operators2",
    "Conmech.C123_operators3",
    "Conmech.C123_connected2",
    "Conmech.C123_connected3"
   ],
   "note": "C123_decay for any ordered field; existence of the shapes over the reals (spectral theorem). Thermal expansion is zero (otherwise the fields are coupled, see C94 and C116) and there is no heat exchange law on the boundary (exact solution of the heat equation). C123_operators2/3 and C123_connected2/3 show that triangular and tetrahedral meshes meet the conditions, C74_heat that exact solutions exist."
  },
  {
   "property": "C124",
   "status": "proved",
   "theorems": [
    "Conmech.C124_dynamic",
    "Conmech.C124_quasistatic",
    "Conmech.C124_wave",
    "Conmech.C124_turned2",
    "Conmech.C124_loads2",
    "Conmech.C124_wave_moved",
    "Conmech.C124_renumbered2",
    "Conmech.C124_renumbered3",
    "Conmech.C124_moved2",
    "Conmech.C124_relabelled2",
    "Conmech.C124_loads_renumbered",
    "Conmech.C124_balanced",
    "Conmech.C124_static_moved2",
    "Conmech.C124_static_relabelled2",
    "Conmech.C124_poisson_moved"
   ],
   "note": "C124_moved2 and C124_relabelled2 are end to end for plane bodies, in node coordinates, C124_wave_moved for waves in the plane and in space, C124_static_moved2, C124_static_relabelled2 and C124_poisson_moved for static problems; C124_dynamic, C124_quasistatic and C124_wave hold in any dimension for any linear map under which operators, supports and loads correspond; C124_turned2, C124_renumbered2 and C124_renumbered3 show that assembled operators correspond, C124_loads2 and C124_loads_renumbered that assembled loads do. In space the coded elasticity is not invariant under rotations (C27, C90), so there is no C124_moved3. The systems are assumed to be solved exactly (C74 shows that they can be); the elements stay in the same order; no contact."
  },
  {
   "property": "C125",
   "status": "proved",
   "theorems": [
    "Conmech.C125_operators2",
    "Conmech.C125_operators3",
    "Conmech.C125_units",
    "Conmech.C125_plane",
    "Conmech.C125_loads2",
    "Conmech.C125_static2"
   ],
   "note": "C125_plane is end to end for plane bodies, in node coordinates, and C125_static2 for static problems; C125_units holds in any dimension for operators in other units, and C125_operators2, C125_operators3 and C125_loads2 show that assembled operators and loads are so. There is no end-to-end theorem in space, because the coded elasticity there is not known to be nonnegative for all coefficients (C120). The systems are assumed to be solved exactly (C74 shows that they can be); the stopping criteria of the optimisers, which are absolute, are not covered; no contact."
  }
 ]
}