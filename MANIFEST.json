{
 "claims": [
  {
   "property": "C01",
   "status": "proved",
   "theorems": [
    "Tve.C01_every_vector",
    "Tve.C01_size",
    "Tve.C01_add",
    "Tve.C01_sub",
    "Tve.C01_add_size_mismatch",
    "Tve.C01_neg",
    "Tve.C01_smul",
    "Tve.C01_truediv",
    "Tve.C01_truediv_zero",
    "Tve.C01_dot",
    "Tve.C01_normsqr",
    "Tve.C01_norm",
    "Tve.C01_map"
   ],
   "note": ""
  },
  {
   "property": "C02",
   "status": "partial",
   "theorems": [
    "Tve.C02_vector",
    "Tve.C02_matrix",
    "Tve.C02_tensor_claim_false",
    "Tve.C02_tensor_partial",
    "Tve.C02_bary",
    "Tve.C02_slice"
   ],
   "note": "Vector, Matrix and BarycentricCoordinates proved in full; the Tensor3D part is false of the code (negative second/third index wraps), negation and partial theorem given."
  },
  {
   "property": "C03",
   "status": "proved",
   "theorems": [
    "Tve.C03_matmul",
    "Tve.C03_matmul_mismatch",
    "Tve.C03_assoc",
    "Tve.C03_transpose",
    "Tve.C03_matvec",
    "Tve.C03_matvec_mismatch"
   ],
   "note": ""
  },
  {
   "property": "C04",
   "status": "proved",
   "theorems": [
    "Tve.C04_det",
    "Tve.C04_det_mul",
    "Tve.C04_det_nonsquare"
   ],
   "note": ""
  },
  {
   "property": "C05",
   "status": "proved",
   "theorems": [
    "Tve.C05_inverse",
    "Tve.C05_singular",
    "Tve.C05_shape"
   ],
   "note": ""
  },
  {
   "property": "C06",
   "status": "proved",
   "theorems": [
    "Tve.C06_reshape_int",
    "Tve.C06_reshape",
    "Tve.C06_reshape_mismatch",
    "Tve.C06_flatten_reshape",
    "Tve.C06_reshape_flatten",
    "Tve.C06_vector_transpose",
    "Tve.C06_extend"
   ],
   "note": ""
  },
  {
   "property": "C07",
   "status": "proved",
   "theorems": [
    "Tve.C07_map_raising",
    "Tve.C07_matrix_accepted",
    "Tve.C07_matrix_is_matOf",
    "Tve.C07_matrix_errors",
    "Tve.C07_tensor_accepted",
    "Tve.C07_tensor_is_tenOf",
    "Tve.C07_vector_stack",
    "Tve.C07_matrix_stack",
    "Tve.C07_matrix_add",
    "Tve.C07_matrix_add_mismatch",
    "Tve.C07_matrix_unary",
    "Tve.C07_matrix_scalars",
    "Tve.C07_trace",
    "Tve.C07_tensor_ops",
    "Tve.C07_tensor_ops_mismatch",
    "Tve.C07_matrix_map",
    "Tve.C07_tensor_map",
    "Tve.C07_matrix_norm"
   ],
   "note": ""
  },
  {
   "property": "C08",
   "status": "partial",
   "theorems": [
    "Tve.C08_sum_kept_iff",
    "Tve.C08_sum",
    "Tve.C08_bounds",
    "Tve.C08_unchanged",
    "Tve.C08_idempotent",
    "Tve.C08_sum_kept_claim_false",
    "Tve.C08_sum_kept_partial"
   ],
   "note": "The sum-preservation part of assert_bounds is false of the code: negation, a quantitative partial theorem, and the exact condition (C08_sum_kept_iff: the sum stays 1 exactly when no coordinate is negative or at most one is positive; otherwise it grows, to at most 2)."
  },
  {
   "property": "C09",
   "status": "proved",
   "theorems": [
    "Tve.C09_grid_counts",
    "Tve.C09_no_duplicates",
    "Tve.C09_indices_valid",
    "Tve.C09_edges_are_sides"
   ],
   "note": ""
  },
  {
   "property": "C10",
   "status": "proved",
   "theorems": [
    "Tve.C10_points",
    "Tve.C10_points_in_rectangle",
    "Tve.C10_extent"
   ],
   "note": ""
  },
  {
   "property": "C11",
   "status": "proved",
   "theorems": [
    "Tve.C11_orientation",
    "Tve.C11_tiling",
    "Tve.C11_area"
   ],
   "note": ""
  },
  {
   "property": "C12",
   "status": "proved",
   "theorems": [
    "Tve.C12_boundary_edges",
    "Tve.C12_boundary_vertices"
   ],
   "note": ""
  },
  {
   "property": "C13",
   "status": "proved",
   "theorems": [
    "Tve.C13_partition",
    "Tve.C13_fixed_sides",
    "Tve.C13_order_irrelevant"
   ],
   "note": ""
  },
  {
   "property": "C14",
   "status": "proved",
   "theorems": [
    "Tve.C14_dirichlet_vertices"
   ],
   "note": ""
  },
  {
   "property": "C15",
   "status": "partial",
   "theorems": [
    "Tve.C15_neumann_vertices_false",
    "Tve.C15_neumann_vertices_partial"
   ],
   "note": "False of the code: a vertex strictly inside a fixed side is listed as a Neumann vertex (negation proved); exact characterisation of the list and the true inclusion proved."
  },
  {
   "property": "C16",
   "status": "proved",
   "theorems": [
    "Tve.C16_located",
    "Tve.C16_total",
    "Tve.C16_vertices_located",
    "Tve.C16_point",
    "Tve.C16_interior",
    "Tve.C16_vertex_exact",
    "Tve.C16_outside"
   ],
   "note": "The tolerance is the absolute 1e-10 of _sign, so the guaranteed lower bound on the coordinates is proportional to 1e-10/scale^2."
  },
  {
   "property": "C17",
   "status": "proved",
   "theorems": [
    "Tve.C17_point_to_vertex",
    "Tve.C17_inverse",
    "Tve.C17_contains",
    "Tve.C17_unique"
   ],
   "note": ""
  },
  {
   "property": "C18",
   "status": "proved",
   "theorems": [
    "Tve.C18_triangle_vertices",
    "Tve.C18_edge_vertices",
    "Tve.C18_library"
   ],
   "note": ""
  },
  {
   "property": "C19",
   "status": "proved",
   "theorems": [
    "Tve.C19_constructor_mean",
    "Tve.C19_append_edge_history",
    "Tve.C19_library"
   ],
   "note": ""
  },
  {
   "property": "C20",
   "status": "proved",
   "theorems": [
    "Tve.C20_equal_iff_same_mesh",
    "Tve.C20_library",
    "Tve.C20_reflexive",
    "Tve.C20_size",
    "Tve.C20_example",
    "Tve.C20_exact",
    "Tve.C20_symmetric",
    "Tve.C20_transitive",
    "Tve.C20_not_symmetric",
    "Tve.C20_not_transitive"
   ],
   "note": "Sound and complete for well separated vertices; an equivalence relation on grids of one mesh size. For slightly different mesh sizes it is neither symmetric nor transitive (counterexamples proved): the tolerance is relative to the mean edge length of the left operand."
  },
  {
   "property": "C21",
   "status": "proved",
   "theorems": [
    "Tve.C21_curves",
    "Tve.C21_in_rectangle",
    "Tve.C21_one_point"
   ],
   "note": ""
  },
  {
   "property": "C22",
   "status": "proved",
   "theorems": [
    "Tve.C22_factor_below_one",
    "Tve.C22_structure",
    "Tve.C22_refine"
   ],
   "note": "For cells of side at least 1e-15, the absolute tolerance used by refine."
  },
  {
   "property": "C23",
   "status": "partial",
   "theorems": [
    "Tve.C23_sharp_partial",
    "Tve.C23_no_fix_partial",
    "Tve.C23_up_to_neumann_vertices_partial",
    "Tve.C23_fixed_side_false",
    "Tve.C23_example"
   ],
   "note": "False of the code for every rectangle with a fixed side and n >= 2 (Neumann vertex lists differ); exact criterion for == proved, and everything except the Neumann vertex list proved equal."
  },
  {
   "property": "C24",
   "status": "partial",
   "theorems": [
    "Tve.C24_foreign_triangle",
    "Tve.C24_stored_triangle_partial",
    "Tve.C24_rotated_false"
   ],
   "note": "Proved for the stored rotation; for the other two rotations the code does not permute the coordinates and returns another point (negation proved)."
  },
  {
   "property": "C25",
   "status": "partial",
   "theorems": [
    "Tve.C25_axis_parallel_partial",
    "Tve.C25_sound",
    "Tve.C25_off_coarse_edges",
    "Tve.C25_diagonal_false",
    "Tve.C25_boundary_edges"
   ],
   "note": "Proved for horizontal and vertical edges (in particular all boundary edges); fine diagonal edges on coarse diagonals are stored with the opposite orientation and raise (negation proved)."
  },
  {
   "property": "C26",
   "status": "proved",
   "theorems": [
    "Tve.C26_subdivided",
    "Tve.C26_partition"
   ],
   "note": ""
  },
  {
   "property": "C27",
   "status": "proved",
   "theorems": [
    "Tve.C27_fine_triangle",
    "Tve.C27_total_area",
    "Tve.C27_edges_are_sides"
   ],
   "note": ""
  },
  {
   "property": "C28",
   "status": "proved",
   "theorems": [
    "Tve.C28_rejected",
    "Tve.C28_accepted",
    "Tve.C28_total"
   ],
   "note": ""
  },
  {
   "property": "C29",
   "status": "proved",
   "theorems": [
    "Tve.C29_centroid",
    "Tve.C29_vertex",
    "Tve.C29_dunavant2",
    "Tve.C29_dunavant3"
   ],
   "note": ""
  },
  {
   "property": "C30",
   "status": "proved",
   "theorems": [
    "Tve.C30_dunavant4",
    "Tve.C30_dunavant5"
   ],
   "note": ""
  },
  {
   "property": "C31",
   "status": "proved",
   "theorems": [
    "Tve.C31_exact",
    "Tve.C31_points",
    "Tve.C31_weights",
    "Tve.C31_midpoint"
   ],
   "note": ""
  },
  {
   "property": "C32",
   "status": "proved",
   "theorems": [
    "Tve.C32_value",
    "Tve.C32_invalid",
    "Tve.C32_linear",
    "Tve.C32_area",
    "Tve.C32_area_is_measure",
    "Tve.C32_mono",
    "Tve.C32_exact"
   ],
   "note": ""
  },
  {
   "property": "C33",
   "status": "proved",
   "theorems": [
    "Tve.C33_value",
    "Tve.C33_linear",
    "Tve.C33_exact",
    "Tve.C33_invalid"
   ],
   "note": ""
  },
  {
   "property": "C34",
   "status": "proved",
   "theorems": [
    "Tve.C34_continuity",
    "Tve.C34_ctor",
    "Tve.C34_hessian",
    "Tve.C34_vertex_values",
    "Tve.C34_affine",
    "Tve.C34_reproduces_affine",
    "Tve.C34_bounds",
    "Tve.C34_well_defined"
   ],
   "note": "C34_continuity: Lipschitz continuity across triangles."
  },
  {
   "property": "C35",
   "status": "proved",
   "theorems": [
    "Tve.C35_derivative"
   ],
   "note": ""
  },
  {
   "property": "C36",
   "status": "proved",
   "theorems": [
    "Tve.C36_on_edge",
    "Tve.C36_boundary"
   ],
   "note": ""
  },
  {
   "property": "C37",
   "status": "proved",
   "theorems": [
    "Tve.C37_value",
    "Tve.C37_gradient",
    "Tve.C37_hessian",
    "Tve.C37_grid"
   ],
   "note": ""
  },
  {
   "property": "C38",
   "status": "proved",
   "theorems": [
    "Tve.C38_quartics"
   ],
   "note": ""
  },
  {
   "property": "C39",
   "status": "proved",
   "theorems": [
    "Tve.C39_derivatives",
    "Tve.C39_grid"
   ],
   "note": ""
  },
  {
   "property": "C40",
   "status": "proved",
   "theorems": [
    "Tve.C40_edge_continuity",
    "Tve.C40_grid"
   ],
   "note": ""
  },
  {
   "property": "C41",
   "status": "proved",
   "theorems": [
    "Tve.C41_on_edge",
    "Tve.C41_reverse",
    "Tve.C41_grid"
   ],
   "note": ""
  },
  {
   "property": "C42",
   "status": "proved",
   "theorems": [
    "Tve.C42_renaming",
    "Tve.C42_all_symbols",
    "Tve.C42_order"
   ],
   "note": ""
  },
  {
   "property": "C43",
   "status": "proved",
   "theorems": [
    "Tve.C43_same_point",
    "Tve.C43_on_edge",
    "Tve.C43_p1",
    "Tve.C43_c1",
    "Tve.C43_edge_consistent",
    "Tve.C43_euclidean"
   ],
   "note": "For the triangles listed by the refined grid. Rotated triples are accepted by the code as well but evaluated at a wrong point: see C24_rotated_false."
  },
  {
   "property": "C44",
   "status": "partial",
   "theorems": [
    "Tve.C44_accuracy",
    "Tve.C44_continuity",
    "Tve.C44_grid_points_partial",
    "Tve.C44_interior",
    "Tve.C44_vertices",
    "Tve.C44_outside",
    "Tve.C44_affine",
    "Tve.C44_domain_rectangle_false",
    "Tve.C44_deformation",
    "Tve.C44_deformation_triangles",
    "Tve.C44_tiny_scale_false"
   ],
   "note": "Proved for grids whose cells are not tiny (absolute tolerance 1e-10); negations for points outside the rectangle of the coarse grid and for tiny scales. C44_accuracy bounds the effect of the tolerance near edges: P1 interpolations evaluate to the piecewise linear function up to 36e-10\u00b7M/s\u00b2 at every point of the rectangle covered by the grid."
  },
  {
   "property": "C45",
   "status": "proved",
   "theorems": [
    "Tve.C45_c1_ctor",
    "Tve.C45_boundary_ctor",
    "Tve.C45_bell",
    "Tve.C45_bell_ok"
   ],
   "note": ""
  },
  {
   "property": "C46",
   "status": "proved",
   "theorems": [
    "Tve.C46_percentage"
   ],
   "note": ""
  },
  {
   "property": "C47",
   "status": "proved",
   "theorems": [
    "Tve.C47_weight",
    "Tve.C47_closed_form"
   ],
   "note": ""
  },
  {
   "property": "C48",
   "status": "proved",
   "theorems": [
    "Tve.C48_well",
    "Tve.C48_undefined",
    "Tve.C48_invariance"
   ],
   "note": ""
  },
  {
   "property": "C49",
   "status": "partial",
   "theorems": [
    "Tve.C49_nonneg",
    "Tve.C49_wells",
    "Tve.C49_invariance",
    "Tve.C49_only_wells_false",
    "Tve.C49_zero_set_partial"
   ],
   "note": "'and nowhere else' is false: the exact zero set is characterised; nonnegativity, zeros and frame indifference proved."
  },
  {
   "property": "C50",
   "status": "proved",
   "theorems": [
    "Tve.C50_austenite",
    "Tve.C50_martensite",
    "Tve.C50_coupling",
    "Tve.C50_stress_free"
   ],
   "note": ""
  },
  {
   "property": "C51",
   "status": "proved",
   "theorems": [
    "Tve.C51_value",
    "Tve.C51_quadratic",
    "Tve.C51_frame_indifference",
    "Tve.C51_kernel",
    "Tve.C51_rate"
   ],
   "note": ""
  },
  {
   "property": "C52",
   "status": "proved",
   "theorems": [
    "Tve.C52_positive_definite",
    "Tve.C52_diffusion",
    "Tve.C52_frame_indifference",
    "Tve.C52_singular"
   ],
   "note": ""
  },
  {
   "property": "C53",
   "status": "proved",
   "theorems": [
    "Tve.C53_convex_combination"
   ],
   "note": ""
  },
  {
   "property": "C54",
   "status": "proved",
   "theorems": [
    "Tve.C54_internal_energy",
    "Tve.C54_antiderivative"
   ],
   "note": ""
  },
  {
   "property": "C55",
   "status": "partial",
   "theorems": [
    "Tve.C55_validation_partial",
    "Tve.C55_fps_false",
    "Tve.C55_usable_partial"
   ],
   "note": "Accepted parameters give a simulation that can be created and run, except fps = 0, which the validation accepts and which raises ZeroDivisionError (negation proved)."
  },
  {
   "property": "C56",
   "status": "proved",
   "theorems": [
    "Tve.C56_mech_shapes",
    "Tve.C56_mech_prev_y",
    "Tve.C56_mech_prev_y_shape",
    "Tve.C56_mech_prev_theta",
    "Tve.C56_mech_prev_theta_rejected",
    "Tve.C56_traction",
    "Tve.C56_mech_solve",
    "Tve.C56_therm_shapes",
    "Tve.C56_therm_prev_y",
    "Tve.C56_therm_y",
    "Tve.C56_therm_prev_theta",
    "Tve.C56_therm_rejected",
    "Tve.C56_external_temperature",
    "Tve.C56_therm_solve"
   ],
   "note": ""
  },
  {
   "property": "C57",
   "status": "proved",
   "theorems": [
    "Tve.C57_fixed_variables",
    "Tve.C57_fixed_boundary",
    "Tve.C57_evaluated"
   ],
   "note": ""
  },
  {
   "property": "C58",
   "status": "proved",
   "theorems": [
    "Tve.C58_always",
    "Tve.C58_step",
    "Tve.C58_steps"
   ],
   "note": "C58_always holds after failed calls too; C58_step and C58_steps (consecutive recorded steps) need that no solve failed, see C71_search_radius for what happens otherwise."
  },
  {
   "property": "C59",
   "status": "proved",
   "theorems": [
    "Tve.C59_nonneg",
    "Tve.C59_update"
   ],
   "note": ""
  },
  {
   "property": "C60",
   "status": "proved",
   "theorems": [
    "Tve.C60_time_always",
    "Tve.C60_clock",
    "Tve.C60_new",
    "Tve.C60_run",
    "Tve.C60_time"
   ],
   "note": ""
  },
  {
   "property": "C61",
   "status": "proved",
   "theorems": [
    "Tve.C61_always",
    "Tve.C61_staggered",
    "Tve.C61_calls"
   ],
   "note": ""
  },
  {
   "property": "C62",
   "status": "partial",
   "theorems": [
    "Tve.C62_max_temp",
    "Tve.C62_max_temp_recorded",
    "Tve.C62_limits_partial",
    "Tve.C62_regularized_partial",
    "Tve.C62_regularized_false"
   ],
   "note": "Exact for simulations without regularization; with regularization the axis limits cover derivative values instead of positions (negation proved)."
  },
  {
   "property": "C63",
   "status": "proved",
   "theorems": [
    "Tve.C63_objective",
    "Tve.C63_energy_decreases",
    "Tve.C63_energy_decreases_regularized",
    "Tve.C63_no_dissipation"
   ],
   "note": "The solver contract 'does not increase the objective' is a hypothesis; the energy is the discrete integral of the specification."
  },
  {
   "property": "C64",
   "status": "proved",
   "theorems": [
    "Tve.C64_constraints",
    "Tve.C64_initial",
    "Tve.C64_simulation"
   ],
   "note": ""
  },
  {
   "property": "C65",
   "status": "partial",
   "theorems": [
    "Tve.C65_false",
    "Tve.C65_never_called_false"
   ],
   "note": "True without regularization; with regularization traction and external temperature are never used (negation proved)."
  },
  {
   "property": "C66",
   "status": "proved",
   "theorems": [
    "Tve.C66_invalid",
    "Tve.C66_compose",
    "Tve.C66_prefix",
    "Tve.C66_succeeds"
   ],
   "note": ""
  },
  {
   "property": "C67",
   "status": "proved",
   "theorems": [
    "Tve.C67_failed_step",
    "Tve.C67_failed_run"
   ],
   "note": ""
  },
  {
   "property": "C68",
   "status": "proved",
   "theorems": [
    "Tve.C68_initial",
    "Tve.C68_energy"
   ],
   "note": "Initial step and state of a new simulation."
  },
  {
   "property": "C69",
   "status": "partial",
   "theorems": [
    "Tve.C69_objective",
    "Tve.C69_derivative_partial",
    "Tve.C69_conduction_false",
    "Tve.C69_minimizer_partial"
   ],
   "note": "The weak heat balance holds with the conduction term counted twice; the negation of the intended balance and the balance that does hold are proved."
  },
  {
   "property": "C70",
   "status": "proved",
   "theorems": [
    "Tve.C70_value",
    "Tve.C70_frame_indifference"
   ],
   "note": ""
  },
  {
   "property": "C71",
   "status": "partial",
   "theorems": [
    "Tve.C71_search_radius",
    "Tve.C71_retry_partial",
    "Tve.C71_thermal_failure",
    "Tve.C71_stuck",
    "Tve.C71_negative_stuck",
    "Tve.C71_retry_false"
   ],
   "note": "True after mechanical failures; after a thermal failure the next run starts from the failed step's deformation (negation proved), and negative temperatures block the simulation for good. After a thermal failure the next recorded step can exceed the search radius (C71_search_radius)."
  },
  {
   "property": "C72",
   "status": "partial",
   "theorems": [
    "Tve.C72_deformation_partial",
    "Tve.C72_temperature_partial",
    "Tve.C72_derivatives_partial",
    "Tve.C72_tiny_scale_false",
    "Tve.C72_everywhere",
    "Tve.C72_temperature_accuracy",
    "Tve.C72_deformation_accuracy"
   ],
   "note": "Proved for scales that are not tiny (absolute tolerance 1e-10 of point location); negation for scale 1e-6. Between the vertices: C72_temperature_accuracy and C72_deformation_accuracy (any scale, error 36e-10\u00b7M/h\u00b2)."
  },
  {
   "property": "C73",
   "status": "proved",
   "theorems": [
    "Tve.C73_oriented",
    "Tve.C73_triangles"
   ],
   "note": "For solvers that do not increase the objective."
  },
  {
   "property": "C74",
   "status": "partial",
   "theorems": [
    "Tve.C74_colours_partial",
    "Tve.C74_limits_false",
    "Tve.C74_plot",
    "Tve.C74_values_partial",
    "Tve.C74_plotting_grid",
    "Tve.C74_in_range_partial",
    "Tve.C74_plot_step",
    "Tve.C74_animation",
    "Tve.C74_curves_partial",
    "Tve.C74_curves_false"
   ],
   "note": "Matplotlib calls are data: what is passed to the axes is modelled, not the drawing. The deformed curves are those of the full rectangle, not of the grid (negation proved). With regularization the axis limits are computed from all entries of the recorded array (positions and derivatives at the vertices) and need not contain the plotted points (C74_limits_false); the colours do lie in the colour range (C74_colours_partial: scale above the absolute tolerance of the point location)."
  },
  {
   "property": "C75",
   "status": "partial",
   "theorems": [
    "Tve.C75_grid_plot_partial",
    "Tve.C75_grid_plot_none_false",
    "Tve.C75_domain_plot"
   ],
   "note": "Matplotlib calls are data. grid.plot() without an axes argument raises TypeError (negation proved)."
  },
  {
   "property": "C76",
   "status": "proved",
   "theorems": [
    "Tve.C76_eq_vector",
    "Tve.C76_eq_matrix",
    "Tve.C76_eq_tensor",
    "Tve.C76_equivalence",
    "Tve.C76_iter_vector",
    "Tve.C76_iter_bary",
    "Tve.C76_numpy"
   ],
   "note": "Entries compared as exact numbers (nan and pyomo expressions not modelled)."
  },
  {
   "property": "C77",
   "status": "proved",
   "theorems": [
    "Tve.C77_step_repr",
    "Tve.C77_step_str",
    "Tve.C77_total",
    "Tve.C77_repr",
    "Tve.C77_str",
    "Tve.C77_bary"
   ],
   "note": "repr of BarycentricCoordinates lists three weights although the constructor takes two, so it cannot be evaluated back; only unambiguity is claimed."
  },
  {
   "property": "C80",
   "status": "proved",
   "theorems": [
    "Tve.C80_elastic",
    "Tve.C80_dissipation",
    "Tve.C80_hyper",
    "Tve.C80_mechanical",
    "Tve.C80_thermal"
   ],
   "note": "The mechanical objective without regularization contains the work of the boundary traction, which is not invariant; its energy and dissipation parts are."
  },
  {
   "property": "C78",
   "status": "proved",
   "theorems": [
    "Tve.C78_attained",
    "Tve.C78_exists",
    "Tve.C78_optimal_solver"
   ],
   "note": "The objective as a function of the variables is continuous where the deformation preserves the orientation at the quadrature points and coercive there (martensite part), the admissible set is compact."
  },
  {
   "property": "C79",
   "status": "partial",
   "theorems": [
    "Tve.C79_dyadic_grid",
    "Tve.C79_dyadic_refine",
    "Tve.C79_tolerance_doubles",
    "Tve.C79_program_second_refinement_false",
    "Tve.C79_cells_partial",
    "Tve.C79_decimal_cells_false",
    "Tve.C79_tolerance",
    "Tve.C79_second_refinement_false",
    "Tve.C79_fine_point_error",
    "Tve.C79_second_refinement_partial"
   ],
   "note": "False in double arithmetic: 0.3 / 0.1 gives two cells, and the triangle with corner heights 4, 4, 5 refined by 5 is not aligned up to 1e-15, so a second refinement raises (both negations proved with round-to-nearest-even arithmetic). Proved: the cell count up to rounding, the general error bound 13*2^-53*M of fine vertices, and alignment for coordinates up to 1/3. Also proved: grids with dyadic mesh size and their refinements by powers of two are free of rounding errors (C79_dyadic_grid, C79_dyadic_refine). The whole program raises: RectangleDomain(10, 10, fix=\"lower\").grid(10).refine(3) cannot be refined again (C79_program_second_refinement_false); in doubles refine raises on every grid with a triangle misaligned by 1e-15 or more (C79_tolerance_doubles)."
  },
  {
   "property": "C81",
   "status": "proved",
   "theorems": [
    "Tve.C81_refine_twice",
    "Tve.C81_refine_commutes",
    "Tve.C81_refine_by_one"
   ],
   "note": "Vertices, edges, triangles and all boundary tags, including the Neumann vertices that make C23 fail."
  },
  {
   "property": "C82",
   "status": "proved",
   "theorems": [
    "Tve.C82_grid",
    "Tve.C82_refine",
    "Tve.C82_problem",
    "Tve.C82_optimal_solver",
    "Tve.C82_simulation"
   ],
   "note": "Over the real numbers: with floats, sums over boundary edges in another order may differ in the last digits. The hypothesis on the solver is met by every choice among optimal solutions (C82_optimal_solver)."
  },
  {
   "property": "C83",
   "status": "proved",
   "theorems": [
    "Tve.Heap.C83_refine",
    "Tve.Heap.C83_refine_independent",
    "Tve.Heap.C83_grid",
    "Tve.Heap.C83_append_edge",
    "Tve.Heap.C83_append_after_refine",
    "Tve.Heap.C83_constructor_shares"
   ],
   "note": "Lists are objects in a heap; boundary objects, dictionaries of a refined grid and points (immutable as used) are values."
  },
  {
   "property": "C84",
   "status": "proved",
   "theorems": [
    "Tve.C84_heat_capacity",
    "Tve.C84_not_all_strains",
    "Tve.C84_balance_unique",
    "Tve.C84_unique",
    "Tve.C84_balance_optimal"
   ],
   "note": "Hypotheses: real arithmetic, nonnegative Gauss weights for the boundary integrals, recorded deformation of moderate strain (ModerateStrain)."
  },
  {
   "property": "C85",
   "status": "partial",
   "theorems": [
    "Tve.C85_contains",
    "Tve.C85_fine",
    "Tve.C85_located_partial",
    "Tve.C85_refined_partial",
    "Tve.C85_value",
    "Tve.C85_large_false"
   ],
   "note": "Partial because the code violates the property for large rectangles (C85_large_false): the tolerance 1e-10 is absolute. The model is the double precision version Model/FloatLocate of the point location (rounding to nearest, no overflow and underflow)."
  },
  {
   "property": "C86",
   "status": "proved",
   "theorems": [
    "Tve.C86_parameters_and_steps",
    "Tve.C86_switch"
   ],
   "note": "Assignment to the attributes is Sim.assign in Spec/Attributes.lean."
  },
  {
   "property": "C87",
   "status": "proved",
   "theorems": [
    "Tve.C87_grid",
    "Tve.C87_refine"
   ],
   "note": "Arithmetic: round to nearest with 53 bits, no overflow or underflow (Model/Float64); the float program is Model/FloatRefine. Square roots are modelled as correctly rounded."
  },
  {
   "property": "C88",
   "status": "proved",
   "theorems": [
    "Tve.C88_missing_refined_grid",
    "Tve.C88_plain",
    "Tve.C88_regularized"
   ],
   "note": "Arrays as in C56."
  },
  {
   "property": "C89",
   "status": "proved",
   "theorems": [
    "Tve.C89_forward",
    "Tve.C89_backward",
    "Tve.C89_step",
    "Tve.C89_split",
    "Tve.C89_reverse",
    "Tve.C89_natural"
   ],
   "note": "Python's slicing of lists is modelled as documented for slice.indices."
  },
  {
   "property": "C90",
   "status": "proved",
   "theorems": [
    "Tve.TS.C90_values",
    "Tve.TS.C90_untouched",
    "Tve.TS.C90_history",
    "Tve.TS.C90_independent",
    "Tve.TS.C90_rows_shared",
    "Tve.TS.C90_matrices_shared",
    "Tve.TS.C90_constructors"
   ],
   "note": "Tensors, their lists and the in-place changes of lists are objects in a heap; the operations on values are those of C01-C07."
  },
  {
   "property": "C91",
   "status": "partial",
   "theorems": [
    "Tve.C91_powers_of_two",
    "Tve.C91_error_partial",
    "Tve.C91_increasing",
    "Tve.C91_nominal_false"
   ],
   "note": "Violated as stated for exact times: C91_nominal_false; exact for powers of two, error bound and monotonicity in general."
  },
  {
   "property": "C92",
   "status": "proved",
   "theorems": [
    "Tve.C92_elastic_stress",
    "Tve.C92_viscous_stress",
    "Tve.C92_derivative",
    "Tve.C92_equilibrium",
    "Tve.C92_resultant"
   ],
   "note": "Derivative of the objective along every line, first order conditions at optimal answers, resultant of the traction for free bodies; examples: a clamped square whose centre vertex is in equilibrium, a free square pulled to the right."
  },
  {
   "property": "C93",
   "status": "proved",
   "theorems": [
    "Tve.C93_exact",
    "Tve.C93_error",
    "Tve.C93_convergence",
    "Tve.C93_boundary",
    "Tve.C93_parts",
    "Tve.C93_neumann_integrator"
   ],
   "note": "Triangles tile the rectangle up to null sets, so integrals add up; error bounds by the variation over a cell; boundary edges sorted by sides. Example: the integral of x^2 y and continuous integrands on grids of a domain whose width is no multiple of the scale."
  },
  {
   "property": "C94",
   "status": "proved",
   "theorems": [
    "Tve.C94_values",
    "Tve.C94_second_order",
    "Tve.C94_convergence"
   ],
   "note": "Mean value theorem on each right triangle. Example: x^2 y on all grids of a domain."
  },
  {
   "property": "C95",
   "status": "proved",
   "theorems": [
    "Tve.C95_elastic",
    "Tve.C95_dissipation",
    "Tve.C95_work",
    "Tve.C95_objective",
    "Tve.C95_thermal"
   ],
   "note": "numpy's leggauss(1) enters only through: as many points as weights, points in [-1,1], weights of sum 2 (hypothesis LegSound, satisfied by the midpoint rule). Example: a non-affine stretch with non-constant temperature, both objectives."
  },
  {
   "property": "C96",
   "status": "proved",
   "theorems": [
    "Tve.C96_percentage",
    "Tve.C96_stable",
    "Tve.C96_unstable"
   ],
   "note": "The two wells in terms of s = |F|^2/det F - 2 and det F; the sum wA + 2 (wM - 1/16) is a sum of squares plus J - 1 - log J. Example: a temperature on each side."
  },
  {
   "property": "C97",
   "status": "proved",
   "theorems": [
    "Tve.C97_mechanical",
    "Tve.C97_thermal",
    "Tve.C97_equilibrium",
    "Tve.C97_positions"
   ],
   "note": "Energy decrease (C63), global minimum (C96) at each quadrature point, dissipation vanishes only for infinitesimal rotations (C51); heat balance (C69) and its strict monotonicity (C84). Example: six steps of an optimal solver with and without regularization."
  },
  {
   "property": "C98",
   "status": "proved",
   "theorems": [
    "Tve.C98_variational",
    "Tve.C98_weak",
    "Tve.C98_first_law",
    "Tve.C98_at_least",
    "Tve.C98_run",
    "Tve.C98_isolated"
   ],
   "note": "Optimality along admissible directions gives the sign of the derivative computed for C69; the test function 1 kills conduction; telescoping over the run. Example: a free square stretched by 10 % heats up."
  },
  {
   "property": "C99",
   "status": "proved",
   "theorems": [
    "Tve.C99_stays",
    "Tve.C99_optimal",
    "Tve.C99_transforms"
   ],
   "note": "The energy gain over the undeformed state is written as a nonnegative combination of squares if 3*alpha + 2*fps >= 1; otherwise parabolic sliding of rows or columns is an admissible competitor with strictly smaller objective. Examples for both cases."
  },
  {
   "property": "C100",
   "status": "proved",
   "theorems": [
    "Tve.Obj.C100_scaling",
    "Tve.Obj.C100_products",
    "Tve.Obj.C100_division",
    "Tve.Obj.C100_sums",
    "Tve.Obj.C100_mixed_sums",
    "Tve.Obj.C100_matmul",
    "Tve.Obj.C100_signs",
    "Tve.Obj.C100_no_wrong_number"
   ],
   "note": "Model of Python's operator dispatch on an inductive type of values with arbitrary entries; the table for tensors of numbers is proved for all sizes, the absence of wrong numbers for all nested values."
  },
  {
   "property": "C101",
   "status": "proved",
   "theorems": [
    "Tve.C101_magnify",
    "Tve.C101_turn",
    "Tve.C101_exchange",
    "Tve.C101_initial",
    "Tve.C101_elastic",
    "Tve.C101_dissipation",
    "Tve.C101_mechanical",
    "Tve.C101_thermal",
    "Tve.C101_optimal",
    "Tve.C101_temperature"
   ],
   "note": "Without regularization only (with regularization the coefficient and the derivative unknowns would have to be scaled, too). Mirror images at a single axis are not symmetries, because all cells are cut along the same diagonal. Conduction and boundary heat scale differently from the bulk terms, so the thermal claims are for factors of absolute value 1. Integrals over edges: the midpoint rule, i.e. numpy's leggauss(1) = ([0], [2]), is a hypothesis. The material is isotropic: the claims rest on energy densities depending on |F|^2 and det F only."
  },
  {
   "property": "C102",
   "status": "proved",
   "theorems": [
    "Tve.C102_quartics",
    "Tve.C102_order",
    "Tve.C102_fifth_order",
    "Tve.C102_convergence"
   ],
   "note": "Real arithmetic. The constants are not optimal."
  },
  {
   "property": "C103",
   "status": "proved",
   "theorems": [
    "Tve.C103_fields",
    "Tve.C103_elastic",
    "Tve.C103_dissipation",
    "Tve.C103_hyper",
    "Tve.C103_objective",
    "Tve.C103_mechanical_limit",
    "Tve.C103_thermal_limit",
    "Tve.C103_thermal"
   ],
   "note": "Real arithmetic. The bounds are explicit, because cells cannot be refined below the absolute tolerance 1e-15 and the weights of the rule do not add up exactly to one; the limits (C103_mechanical_limit, C103_thermal_limit) speak about grids above that tolerance only, so for tiny errors the admissible scales can be empty. For the elastic and thermal integrands the modulus of continuity along strain, temperature and gradient is a hypothesis (kappa) of the explicit bounds, and is derived from compactness in the limits."
  },
  {
   "property": "C104",
   "status": "proved",
   "theorems": [
    "Tve.C104_unique",
    "Tve.C104_interpolation",
    "Tve.C104_corners",
    "Tve.C104_similar"
   ],
   "note": "Real arithmetic. Proved by unisolvence of the element on the reference triangle (21 coefficients) and the closed form of the shape functions."
  },
  {
   "property": "C105",
   "status": "proved",
   "theorems": [
    "Tve.C105_magnify",
    "Tve.C105_turn",
    "Tve.C105_initial",
    "Tve.C105_elastic",
    "Tve.C105_dissipation",
    "Tve.C105_hyper",
    "Tve.C105_mechanical",
    "Tve.C105_thermal",
    "Tve.C105_optimal",
    "Tve.C105_temperature"
   ],
   "note": "Real arithmetic. The search radius bounds values, first and second derivatives alike, so optimal steps of magnified simulations need not correspond; this part is proved for half turns (|\u03ba| = 1) only, as is the claim about temperatures, whose Laplacian scales differently from the other terms. Exchange of axes is excluded: the points of the DUNAVANT5 rule are not exactly symmetric."
  },
  {
   "property": "C106",
   "status": "proved",
   "theorems": [
    "Tve.C106_energy",
    "Tve.C106_temperature",
    "Tve.C106_recovers"
   ],
   "note": "Real arithmetic. That a failing thermal solve loads nothing is a hypothesis about pyomo and ipopt (Solver.KeepsTemperature); C71 shows what happens without it. The dissipation is that of the chain of attempts, each measured from the deformation the attempt started at."
  },
  {
   "property": "C107",
   "status": "proved",
   "theorems": [
    "Tve.C107_step",
    "Tve.C107_first",
    "Tve.C107_step_regularized",
    "Tve.C107_first_regularized"
   ],
   "note": "Real arithmetic. C107_step and C107_step_regularized speak about any step whose predecessor holds the nodal values of a smooth state (uniformly in the scale); for the first step, which starts from the undeformed body at the initial temperature, this is proved (C107_first, C107_first_regularized). It is an upper bound: that no discrete deformation is much better than all smooth ones is not claimed, and is not expected to hold, since the energy is not quasiconvex. That the answer is optimal is a hypothesis about the solver. With regularization the scale must stay above the tolerance of refine, so for tiny eps the admissible scales can be empty."
  },
  {
   "property": "C108",
   "status": "partial",
   "theorems": [
    "Tve.C108_gauss",
    "Tve.C108_gauss_exact",
    "Tve.C108_edge_length",
    "Tve.C108_boundary_integrator",
    "Tve.C108_new_integrator",
    "Tve.C108_boundary_length",
    "Tve.C108_sum",
    "Tve.C108_validation",
    "Tve.C108_coordinates",
    "Tve.C108_negative_coordinate_false",
    "Tve.C108_builtin",
    "Tve.C108_integrator",
    "Tve.C108_area"
   ],
   "note": "Doubles with unbounded exponents as in C79. One part is false of the code: since the check x + y > 1 rounds, the third coordinate of a point of an accepted rule can be -2^-53 (C108_negative_coordinate_false); proved instead: at least -2^-51, and nonnegative for the built-in rules. The contract on sum is proved for left-to-right addition (Python 3.11); that the compensated summation of Python 3.12 is at least as accurate is not proved."
  },
  {
   "property": "C109",
   "status": "proved",
   "theorems": [
    "Tve.C109_rounding",
    "Tve.C109_vectors",
    "Tve.C109_vectors_raise",
    "Tve.C109_matrices",
    "Tve.C109_matrices_raise",
    "Tve.C109_dot",
    "Tve.C109_normsqr",
    "Tve.C109_matmul",
    "Tve.C109_matmul_raise",
    "Tve.C109_matvec",
    "Tve.C109_trace",
    "Tve.C109_scalar_product",
    "Tve.C109_matrix_normsqr",
    "Tve.C109_tensors",
    "Tve.C109_tensors_raise",
    "Tve.C109_det",
    "Tve.C109_det_nonsquare",
    "Tve.C109_det2",
    "Tve.C109_rounded_singular",
    "Tve.C109_inverse",
    "Tve.C109_norm",
    "Tve.C109_matrix_norm",
    "Tve.C109_laws",
    "Tve.C109_not_associative"
   ],
   "note": "Doubles with unbounded exponents as in C79 (no overflow or underflow); the entries of the theorems are the numbers denoted by the doubles. That some invertible matrices of doubles have no computed inverse (C109_rounded_singular) and that addition is not associative (C109_not_associative) limits C05 and C01, which are about exact arithmetic."
  },
  {
   "property": "C110",
   "status": "proved",
   "theorems": [
    "Tve.C110_on_edge",
    "Tve.C110_boundary_call",
    "Tve.C110_call",
    "Tve.C110_deformation",
    "Tve.C110_gradient",
    "Tve.C110_gradient_grid",
    "Tve.C110_undeformed",
    "Tve.C110_cancels",
    "Tve.C110_constant",
    "Tve.C110_far_triangle"
   ],
   "note": "Doubles with unbounded exponents as in C79 (no overflow or underflow). The C1 (Bell) interpolation is not covered: its shape functions are evaluated by sympy's lambdify, whose order of operations is not part of this repository. C110_far_triangle shows that the condition on the area cannot be dropped: the area is computed from absolute coordinates, so the error grows with the square of the number of cells."
  },
  {
   "property": "C111",
   "status": "proved",
   "theorems": [
    "Tve.C111_objective",
    "Tve.C111_forces",
    "Tve.C111_heat",
    "Tve.C111_first_law",
    "Tve.C111_unique"
   ],
   "note": "Extends C63, C69, C84, C92 and C98 from simulations without failures (Healthy) to all (Reachable); the proofs are those of the latter for the problems found by an induction over the history (Sim.Reachable.attempts). The conductivity in the balance of heat is twice heat_conductivity_reference, see C69."
  },
  {
   "property": "C112",
   "status": "proved",
   "theorems": [
    "Tve.C112_stays",
    "Tve.C112_transforms",
    "Tve.C112_equilibrium"
   ],
   "note": "Extends C97 and C99 from simulations without failures (Healthy) to all (Reachable). By an induction over the history (Sim.Reachable.chain) what mechanical solves at the temperatures and the time of a step keep holds for the step recorded next. The hypothesis KeepsTemperature (a failing thermal solve loads nothing) is how pyomo behaves."
  },
  {
   "property": "C113",
   "status": "proved",
   "theorems": [
    "Tve.C113_uniform",
    "Tve.C113_short_steps",
    "Tve.C113_threshold",
    "Tve.C113_readme"
   ],
   "note": "Combines C99, C112 and C97: stay_all/stay_healthy for the condition at the initial temperature, C112_transforms for the converse. C113_readme needs no contract for failing calls. With regularization the external temperature and the traction do not act and CanSlide means that nothing is fixed."
  },
  {
   "property": "C114",
   "status": "proved",
   "theorems": [
    "Tve.C114_balance",
    "Tve.C114_pulled",
    "Tve.C114_first",
    "Tve.C114_notebook"
   ],
   "note": "From the balance of forces C92: the elastic and the viscous stress vanish at strain 1 (stressE_one, C92_viscous_stress), so the boundary work of every admissible displacement vanishes; the displacement of one vertex in the pulling direction has positive work (pulled_work). LegMidpoint says what numpy.polynomial.legendre.leggauss(1) returns. Equality of the steps is exact (real numbers); an interior point solver would satisfy it up to its tolerance."
  },
  {
   "property": "C115",
   "status": "proved",
   "theorems": [
    "Tve.C115_warms",
    "Tve.C115_cools",
    "Tve.C115_equilibrium",
    "Tve.C115_insulated",
    "Tve.C115_rigid",
    "Tve.C115_first"
   ],
   "note": "The heat balance C98 with constant test functions; heat production vanishes at rest, the internal energy increases with the temperature (C84_heat_capacity, moderate strains), the heat loss through the boundary has a sign (IsHeatLoss.sign, midpoint rule as returned by leggauss(1): LegMidpoint). C115_cools needs 0 <= external temperature, because the temperatures are constrained to be nonnegative. Optimality of the thermal answer is a hypothesis; the example shows it is satisfiable (C78)."
  },
  {
   "property": "C116",
   "status": "proved",
   "theorems": [
    "Tve.C116_moves",
    "Tve.C116_total",
    "Tve.C116_temperatures"
   ],
   "note": "Extends C58 (no failures) to all reachable simulations; with failures the search radius bounds a single step no longer (C71_search_radius: two radii), the first example shows that the bound is attained there. Sim.mechanicalBetween counts the problems of class mechanical in the log of solver calls, Sim.RecordedAt ties every step to the two problems it was made from."
  },
  {
   "property": "C117",
   "status": "partial",
   "theorems": [
    "Tve.C117_feasible",
    "Tve.C117_feasible_temperature",
    "Tve.C117_width",
    "Tve.C117_model",
    "Tve.C117_exact",
    "Tve.C117_exact_radius_false",
    "Tve.C117_run",
    "Tve.C117_frozen",
    "Tve.C117_free"
   ],
   "note": "Double precision counterpart of C58, for one component: KeepsBounds is the contract of the solver (ipopt's own relaxation of bounds is not modelled). C117_exact_radius_false: radius 3/2^54 around 1 allows a move by 4/2^54."
  }
 ]
}