{
 "claims": [
  {
   "property": "C01",
   "status": "proved",
   "theorems": [
    "Dxss.C01_table_shape",
    "Dxss.C01_basis_nodal",
    "Dxss.C01_basis_nodal_zero",
    "Dxss.C01_partition_of_unity"
   ],
   "note": ""
  },
  {
   "property": "C02",
   "status": "proved",
   "theorems": [
    "Dxss.C02_derivative_table"
   ],
   "note": ""
  },
  {
   "property": "C03",
   "status": "proved",
   "theorems": [
    "Dxss.C03_elmat_integrals",
    "Dxss.C03_elmat_keyError"
   ],
   "note": ""
  },
  {
   "property": "C04",
   "status": "proved",
   "theorems": [
    "Dxss.C04_definiteness"
   ],
   "note": ""
  },
  {
   "property": "C05",
   "status": "proved",
   "theorems": [
    "Dxss.C05_integration_by_parts"
   ],
   "note": ""
  },
  {
   "property": "C06",
   "status": "proved",
   "theorems": [
    "Dxss.C06_guard_entries",
    "Dxss.C06_guard_harmless"
   ],
   "note": ""
  },
  {
   "property": "C07",
   "status": "proved",
   "theorems": [
    "Dxss.C07_rejects",
    "Dxss.C07_unknown_name",
    "Dxss.C07_accepts"
   ],
   "note": ""
  },
  {
   "property": "C08",
   "status": "proved",
   "theorems": [
    "Dxss.C08_polynomial_exactness"
   ],
   "note": ""
  },
  {
   "property": "C09",
   "status": "proved",
   "theorems": [
    "Dxss.C09_radau4_error",
    "Dxss.C09_radau5_error"
   ],
   "note": ""
  },
  {
   "property": "C10",
   "status": "proved",
   "theorems": [
    "Dxss.C10_lifting_polynomial"
   ],
   "note": ""
  },
  {
   "property": "C11",
   "status": "proved",
   "theorems": [
    "Dxss.C11_spacetime_indices",
    "Dxss.C11_slab_indices",
    "Dxss.C11_coupling_indices",
    "Dxss.C11_interface_mass_indices",
    "Dxss.C11_rhs_indices",
    "Dxss.C11_preload_indices",
    "Dxss.C11_forms_returned",
    "Dxss.C11_lfi_returned"
   ],
   "note": ""
  },
  {
   "property": "C12",
   "status": "proved",
   "theorems": [
    "Dxss.C12_form_is_variational",
    "Dxss.C12_matrix",
    "Dxss.C12_bfi",
    "Dxss.C12_slab_matrix"
   ],
   "note": ""
  },
  {
   "property": "C13",
   "status": "proved",
   "theorems": [
    "Dxss.C13_symmetric",
    "Dxss.C13_precond_asymmetry",
    "Dxss.C13_precond_not_symmetric",
    "Dxss.C13_matrix"
   ],
   "note": ""
  },
  {
   "property": "C14",
   "status": "proved",
   "theorems": [
    "Dxss.C14_stability_identity",
    "Dxss.C14_energy_nonneg",
    "Dxss.C14_matrix"
   ],
   "note": ""
  },
  {
   "property": "C15",
   "status": "proved",
   "theorems": [
    "Dxss.C15_unique_solution"
   ],
   "note": "exact arithmetic; the spatial mass forms are assumed definite and the finite-element basis independent"
  },
  {
   "property": "C16",
   "status": "proved",
   "theorems": [
    "Dxss.C16_slab_unique_solution"
   ],
   "note": "as C15; any number of slabs, either value of well_posed"
  },
  {
   "property": "C17",
   "status": "proved",
   "theorems": [
    "Dxss.C17_matrix_free_product",
    "Dxss.C17_returned_matrix"
   ],
   "note": ""
  },
  {
   "property": "C18",
   "status": "partial",
   "theorems": [
    "Dxss.C18_exact_discrepancy_partial",
    "Dxss.C18_violated",
    "Dxss.C18_violated_well_posed",
    "Dxss.C18_violated_fw_jumps",
    "Dxss.C18_api_partial",
    "Dxss.C18_api_violated"
   ],
   "note": "The code violates the property: the matrix-free product omits the initial-data terms (well_posed) and the forward-jump terms. Proved: the exact discrepancy for every configuration and, in each of the two configurations, a witness where the products differ."
  },
  {
   "property": "C19",
   "status": "proved",
   "theorems": [
    "Dxss.C19_depends_on_input_only",
    "Dxss.C19_linear",
    "Dxss.C19_frame",
    "Dxss.C19_alias_zero",
    "Dxss.C19_api_input_only",
    "Dxss.C19_api_linear",
    "Dxss.C19_api_alias"
   ],
   "note": ""
  },
  {
   "property": "C20",
   "status": "proved",
   "theorems": [
    "Dxss.C20_time_marching_solves",
    "Dxss.C20_returns"
   ],
   "note": ""
  },
  {
   "property": "C21",
   "status": "proved",
   "theorems": [
    "Dxss.C21_recovers",
    "Dxss.C21_returned_matrices"
   ],
   "note": ""
  },
  {
   "property": "C22",
   "status": "proved",
   "theorems": [
    "Dxss.C22_variants_agree",
    "Dxss.C22_same_when_placeholder_zero",
    "Dxss.C22_api"
   ],
   "note": ""
  },
  {
   "property": "C23",
   "status": "proved",
   "theorems": [
    "Dxss.C23_causal",
    "Dxss.C23_causal_first_variant",
    "Dxss.C23_api"
   ],
   "note": ""
  },
  {
   "property": "C24",
   "status": "proved",
   "theorems": [
    "Dxss.C24_depends_on_rhs_only",
    "Dxss.C24_depends_on_rhs_only_first_variant",
    "Dxss.C24_frame",
    "Dxss.C24_linear",
    "Dxss.C24_api",
    "Dxss.C24_api_linear"
   ],
   "note": ""
  },
  {
   "property": "C25",
   "status": "proved",
   "theorems": [
    "Dxss.C25_rejected",
    "Dxss.C25_only_then",
    "Dxss.C25_api"
   ],
   "note": ""
  },
  {
   "property": "C26",
   "status": "proved",
   "theorems": [
    "Dxss.C26_failure_frame",
    "Dxss.C26_retry_like_fresh",
    "Dxss.C26_api"
   ],
   "note": ""
  },
  {
   "property": "C27",
   "status": "proved",
   "theorems": [
    "Dxss.C27_documented_sequence"
   ],
   "note": ""
  },
  {
   "property": "C28",
   "status": "partial",
   "theorems": [
    "Dxss.C28_always_fails",
    "Dxss.Example.C28_violated",
    "Dxss.C28_product_unaffected_partial"
   ],
   "note": "The code violates the property (full statement: C28_statement): after an early get_slab_matrix the work vector of the preconditioner is never allocated and every later application raises AttributeError. Proved: this failure for every later history, and that the matrix-free product is unaffected."
  },
  {
   "property": "C29",
   "status": "partial",
   "theorems": [
    "Dxss.C29_always_fails",
    "Dxss.C29_never_without_slab_request",
    "Dxss.Example.C29_violated",
    "Dxss.C29_explicit_setup_partial"
   ],
   "note": "The code violates the property (full statement: C29_statement): with well_posed=True preparation does not build the jump-free slab matrix, so the product raises AttributeError. Proved: the failure in every such configuration and every history without an explicit slab request, and that an explicit setup_slab_matrix(False) repairs it."
  },
  {
   "property": "C30",
   "status": "proved",
   "theorems": [
    "Dxss.C30_matrix_stable",
    "Dxss.C30_form_stable",
    "Dxss.C30_rhs_stable",
    "Dxss.C30_linear_form_stable",
    "Dxss.C30_slab_matrix_stable",
    "Dxss.C30_slab_form_stable",
    "Dxss.C30_first_slab_stable",
    "Dxss.C30_operators_stable"
   ],
   "note": ""
  },
  {
   "property": "C31",
   "status": "proved",
   "theorems": [
    "Dxss.C31_operators_correct",
    "Dxss.C31_product_correct",
    "Dxss.C31_product_form",
    "Dxss.C31_slab_product",
    "Dxss.C31_coupling_product"
   ],
   "note": ""
  },
  {
   "property": "C32",
   "status": "partial",
   "theorems": [
    "Dxss.C32_always_fails",
    "Dxss.Example.C32_violated",
    "Dxss.C32_same_flag_partial",
    "Dxss.C32_api_always_fails",
    "Dxss.Example.C32_api_violated"
   ],
   "note": "The code violates the property (full statement: C32_statement): the cache ignores precond. Proved: the wrong matrix is returned for ever after a request with the other flag, and the right one if all requests used the same flag."
  },
  {
   "property": "C33",
   "status": "partial",
   "theorems": [
    "Dxss.C33_api_not_well_posed_partial",
    "Dxss.C33_api_wrong_data",
    "Dxss.Example.C33_api_violated",
    "Dxss.C33_not_well_posed_partial",
    "Dxss.C33_initial_data_partial",
    "Dxss.C33_overwritten",
    "Dxss.C33_wrong_data",
    "Dxss.C33_reset_partial",
    "Dxss.C33_latest_partial",
    "Dxss.Example.C33_violated"
   ],
   "note": "The code violates the property for well_posed=True (full statement: C33_statement): measured_errors and plot_para_view overwrite the initial data. Proved: it holds for well_posed=False after any history, and for well_posed=True if neither is called before the first request; and exactly which data is used otherwise."
  },
  {
   "property": "C34",
   "status": "partial",
   "theorems": [
    "Dxss.C34_retry_partial",
    "Dxss.C34_bad_steps",
    "Dxss.C34_no_other_steps",
    "Dxss.C34_violated",
    "Dxss.C34_first_allocation_permanent"
   ],
   "note": "The code violates the property at exactly three steps (full statement: C34_statement), the vector allocations after the guarding matrix has been stored. Proved: retry restores the undisturbed result at every other step, and fails at these three; the first is permanent."
  },
  {
   "property": "C35",
   "status": "partial",
   "theorems": [
    "Dxss.C35_unfitted_partial",
    "Dxss.Example.C35_violated",
    "Dxss.C35_fitted_discards",
    "Dxss.C35_no_data_term",
    "Dxss.C35_no_data_in_rhs"
   ],
   "note": "The code violates the property for fitted=True, the default (full statement: C35_statement). Proved: it holds for fitted=False; for fitted=True the indicator is replaced by zero, so data terms vanish and the right-hand side does not depend on the data."
  },
  {
   "property": "C36",
   "status": "proved",
   "theorems": [
    "Dxss.C36_zero_division",
    "Dxss.C36_key_error",
    "Dxss.C36_failure_frame",
    "Dxss.C36_derived",
    "Dxss.C36_unpacking"
   ],
   "note": ""
  },
  {
   "property": "C37",
   "status": "proved",
   "theorems": [
    "Dxss.C37_prolongation",
    "Dxss.C37_restriction",
    "Dxss.C37_every_entry",
    "Dxss.C37_every_entry_restriction",
    "Dxss.C37_round_trip",
    "Dxss.C37_prolongation_shape_error",
    "Dxss.C37_restriction_shape_error"
   ],
   "note": ""
  },
  {
   "property": "C38",
   "status": "proved",
   "theorems": [
    "Dxss.C38_value",
    "Dxss.C38_depends_on_input_only",
    "Dxss.C38_linear",
    "Dxss.C38_exact_on_coarse",
    "Dxss.C38_ready",
    "Dxss.C38_needs_rhs"
   ],
   "note": ""
  },
  {
   "property": "C39",
   "status": "partial",
   "theorems": [
    "Dxss.C39_intended_partial",
    "Dxss.C39_always_fails",
    "Dxss.Example.C39_violated"
   ],
   "note": "The code violates the property (full statement: C39_statement): every call raises AttributeError. Proved: that, and the value the body would compute with the coarse correction looked up on the object itself."
  },
  {
   "property": "C40",
   "status": "proved",
   "theorems": [
    "Dxss.C40_top",
    "Dxss.C40_matching",
    "Dxss.C40_derivative",
    "Dxss.C40_continuous",
    "Dxss.C40_recon",
    "Dxss.C40_recon_derivative"
   ],
   "note": ""
  },
  {
   "property": "C41",
   "status": "proved",
   "theorems": [
    "Dxss.C41_samples",
    "Dxss.C41_covered",
    "Dxss.C41_neighbours",
    "Dxss.C41_at_most_two",
    "Dxss.C41_same_value",
    "Dxss.C41_maxima_defined"
   ],
   "note": "Exact arithmetic, as stated in the property."
  },
  {
   "property": "C42",
   "status": "proved",
   "theorems": [
    "Dxss.C42_report",
    "Dxss.C42_nonneg",
    "Dxss.C42_final_le_max",
    "Dxss.C42_exact",
    "Dxss.C42_any_history",
    "Dxss.C42_returns"
   ],
   "note": ""
  },
  {
   "property": "C43",
   "status": "proved",
   "theorems": [
    "Dxss.C43_tables",
    "Dxss.C43_plot",
    "Dxss.C43_plot_error",
    "Dxss.C43_any_history",
    "Dxss.C43_error_any_history",
    "Dxss.C43_returns"
   ],
   "note": ""
  },
  {
   "property": "C44",
   "status": "proved",
   "theorems": [
    "Dxss.Gmres.C44_success",
    "Dxss.Gmres.C44_failure",
    "Dxss.Gmres.C44_errors",
    "Dxss.Gmres.C44_iff",
    "Dxss.Gmres.C44_tolerance"
   ],
   "note": ""
  },
  {
   "property": "C45",
   "status": "proved",
   "theorems": [
    "Dxss.Gmres.C45_arguments",
    "Dxss.Gmres.C45_effective",
    "Dxss.Gmres.C45_monitor",
    "Dxss.Gmres.C45_database",
    "Dxss.Gmres.C45_persists"
   ],
   "note": ""
  },
  {
   "property": "C46",
   "status": "proved",
   "theorems": [
    "Dxss.C46_backend",
    "Dxss.C46_completes",
    "Dxss.C46_diverged"
   ],
   "note": ""
  },
  {
   "property": "C47",
   "status": "partial",
   "theorems": [
    "Dxss.C47_zero_partial",
    "Dxss.Example.C47_violated"
   ],
   "note": "The code violates the property (full statement: C47_statement): the arguments of solve are swapped. Proved: the branch returns the zero vector and overwrites the right-hand side."
  },
  {
   "property": "C48",
   "status": "proved",
   "theorems": [
    "Dxss.C48_conversion",
    "Dxss.C48_entries",
    "Dxss.C48_square",
    "Dxss.C48_solver"
   ],
   "note": ""
  },
  {
   "property": "C49",
   "status": "proved",
   "theorems": [
    "Dxss.C49_hierarchy",
    "Dxss.C49_all_marked",
    "Dxss.C49_uniform",
    "Dxss.C49_convex"
   ],
   "note": "for a library that accepts the argument passed (see C57)"
  },
  {
   "property": "C50",
   "status": "partial",
   "theorems": [
    "Dxss.C50_violated",
    "Dxss.C50_never",
    "Dxss.C50_refuses_exactly",
    "Dxss.C50_rows_partial",
    "Dxss.C50_cells",
    "Dxss.C50_mesh_partial",
    "Dxss.C50_tables",
    "Dxss.C50_square_never"
   ],
   "note": "violated: the test for sequential numbers is inverted; the reordering itself is proved right"
  },
  {
   "property": "C51",
   "status": "proved",
   "theorems": [
    "Dxss.C51_points"
   ],
   "note": ""
  },
  {
   "property": "C52",
   "status": "proved",
   "theorems": [
    "Dxss.C52_marker",
    "Dxss.C52_surfaces",
    "Dxss.C52_only",
    "Dxss.C52_boundary",
    "Dxss.C52_counted"
   ],
   "note": ""
  },
  {
   "property": "C53",
   "status": "proved",
   "theorems": [
    "Dxss.C53_convex1",
    "Dxss.C53_noGcc1",
    "Dxss.C53_convex2",
    "Dxss.C53_gcc3",
    "Dxss.C53_noGcc3",
    "Dxss.C53_ufl",
    "Dxss.C53_agree"
   ],
   "note": ""
  },
  {
   "property": "C54",
   "status": "proved",
   "theorems": [
    "Dxss.Files.C54_synchronised",
    "Dxss.Files.C54_one_call",
    "Dxss.Files.C54_no_deadlock",
    "Dxss.Files.C54_not_synchronised"
   ],
   "note": ""
  },
  {
   "property": "C55",
   "status": "proved",
   "theorems": [
    "Dxss.C55_cover",
    "Dxss.C55_inside",
    "Dxss.C55_disjoint",
    "Dxss.C55_target"
   ],
   "note": ""
  },
  {
   "property": "C56",
   "status": "proved",
   "theorems": [
    "Dxss.C56_order",
    "Dxss.C56_argument",
    "Dxss.C56_releases",
    "Dxss.C56_prereleases",
    "Dxss.C56_strict_order",
    "Dxss.C56_local"
   ],
   "note": ""
  },
  {
   "property": "C57",
   "status": "partial",
   "theorems": [
    "Dxss.C57_violated",
    "Dxss.C57_partial"
   ],
   "note": "violated: three builders raise TypeError with DOLFINx 0.7"
  },
  {
   "property": "C58",
   "status": "partial",
   "theorems": [
    "Dxss.Files.C58_tags_overwritten",
    "Dxss.Files.C58_one_process",
    "Dxss.Files.C58_last_call"
   ],
   "note": "violated for the facet tags with two or more processes"
  },
  {
   "property": "C59",
   "status": "partial",
   "theorems": [
    "Dxss.C59_violated",
    "Dxss.C59_overlap",
    "Dxss.C59_partial"
   ],
   "note": "violated: the upper block starts 0.25 too low"
  },
  {
   "property": "C60",
   "status": "partial",
   "theorems": [
    "Dxss.C60_violated",
    "Dxss.C60_unit_partial"
   ],
   "note": "violated in get_mesh_inclusion; proved on the unit square"
  },
  {
   "property": "C61",
   "status": "proved",
   "theorems": [
    "Dxss.C61_slab_forward_jumps"
   ],
   "note": "as C15"
  },
  {
   "property": "C62",
   "status": "proved",
   "theorems": [
    "Dxss.C62_one_sided_unique_solution",
    "Dxss.C62_exact_slab_solvers"
   ],
   "note": "as C15"
  },
  {
   "property": "C63",
   "status": "proved",
   "theorems": [
    "Dxss.C63_rhs_form",
    "Dxss.C63_rhs_vector"
   ],
   "note": ""
  },
  {
   "property": "C64",
   "status": "proved",
   "theorems": [
    "Dxss.C64_consistency",
    "Dxss.C64_quadrature_error"
   ],
   "note": "exact solutions are curves in the function space (Spec.WaveSolution)"
  },
  {
   "property": "C65",
   "status": "proved",
   "theorems": [
    "Dxss.C65_error_identity"
   ],
   "note": "as C64"
  },
  {
   "property": "C66",
   "status": "partial",
   "theorems": [
    "Dxss.Example.C66_violated",
    "Dxss.C66_construct_partial",
    "Dxss.C66_placeholder_only",
    "Dxss.C66_same_system",
    "Dxss.C66_solution_energy"
   ],
   "note": "violated as a consequence of C35 (full statement: C66_statement); the effect on the scripts is proved"
  },
  {
   "property": "C67",
   "status": "proved",
   "theorems": [
    "Dxss.Script.C67_derivative",
    "Dxss.Script.C67_wave_equation",
    "Dxss.Script.C67_boundary",
    "Dxss.Script.C67_nontrivial",
    "Dxss.C67_solution_1d"
   ],
   "note": ""
  },
  {
   "property": "C68",
   "status": "proved",
   "theorems": [
    "Dxss.C68_observable_unique_solution",
    "Dxss.C68_full_data_observe",
    "Dxss.C68_initial_values_observe"
   ],
   "note": "assumptions as C15, with observability in place of well_posed=True"
  },
  {
   "property": "C69",
   "status": "partial",
   "theorems": [
    "Dxss.Example.C69_violated",
    "Dxss.C69_window_partial"
   ],
   "note": "violated: the start time is not used (full statement: C69_statement)"
  },
  {
   "property": "C70",
   "status": "proved",
   "theorems": [
    "Dxss.C70_stability"
   ],
   "note": "the four-point rule bounds squares of discrete functions by 1.01 times the integral (radau_slab)"
  },
  {
   "property": "C71",
   "status": "proved",
   "theorems": [
    "Dxss.C71_error_estimate"
   ],
   "note": "boundary flux bounded through an arbitrary G with nit(v,y)^2 <= G(v) pen(y,y)"
  },
  {
   "property": "C72",
   "status": "proved",
   "theorems": [
    "Dxss.C72_files",
    "Dxss.C72_same_value",
    "Dxss.C72_effect",
    "Dxss.C72_any_history"
   ],
   "note": "interpolation is evaluation at the nodes of a nodal basis"
  },
  {
   "property": "C73",
   "status": "partial",
   "theorems": [
    "Dxss.Par.C73_raises",
    "Dxss.Par.C73_loaded_partial",
    "Dxss.Par.C73_violated"
   ],
   "note": "violated: the owned part is assigned to an array with owned and ghost entries; holds on ranks without ghosts"
  },
  {
   "property": "C74",
   "status": "partial",
   "theorems": [
    "Dxss.Par.C74_raises",
    "Dxss.Par.C74_returns_partial",
    "Dxss.Par.C74_returns_iff",
    "Dxss.Par.C74_sequential",
    "Dxss.Example.C74_violated"
   ],
   "note": "violated on ranks with ghost dofs; on one process it always returns and refines the model in which vectors are total functions"
  },
  {
   "property": "C75",
   "status": "partial",
   "theorems": [
    "Dxss.Par.C75_missing_cells",
    "Dxss.Par.C75_right_hand_side_partial",
    "Dxss.Example.C75_violated"
   ],
   "note": "violated: no ghostUpdate after assemble_vector; the missing part is stated exactly, it vanishes on one rank"
  },
  {
   "property": "C76",
   "status": "partial",
   "theorems": [
    "Dxss.Fl.C76_violated",
    "Dxss.Fl.C76_power_of_two_partial",
    "Dxss.Fl.C76_missed_near_boundary_partial",
    "Dxss.Fl.C76_rounding"
   ],
   "note": "violated for T=1, N=6 (full statement: Fl.C76_statement); holds for powers of two"
  },
  {
   "property": "C77",
   "status": "proved",
   "theorems": [
    "Dxss.C77_any_history",
    "Dxss.C77_last_mesh",
    "Dxss.C77_uniquely_solvable"
   ],
   "note": "the form determines the matrix: CoarseMesh.Discretises.unique"
  },
  {
   "property": "C78",
   "status": "proved",
   "theorems": [
    "Dxss.C78_matrices_available",
    "Dxss.C78_preconditioner_solves",
    "Dxss.C78_solvers_exist",
    "Dxss.C78_one_sided_unique_solution"
   ],
   "note": "solvability with well_posed=True is C62"
  },
  {
   "property": "C79",
   "status": "proved",
   "theorems": [
    "Dxss.C79_residual_bounds_error",
    "Dxss.C79_gmres_error",
    "Dxss.C79_error_estimate",
    "Dxss.C79_maps_exist"
   ],
   "note": "well_posed=False without forward jumps; PETSc: TestsConvergence, reasons 2 and 3"
  },
  {
   "property": "C80",
   "status": "proved",
   "theorems": [
    "Dxss.C80_only_output",
    "Dxss.C80_history",
    "Dxss.C80_input_kept"
   ],
   "note": "the caller's vectors are distinct from the vector returned by get_spacetime_rhs"
  },
  {
   "property": "C81",
   "status": "partial",
   "theorems": [
    "Dxss.C81_convex_partial",
    "Dxss.C81_nonconvex_exchanged",
    "Dxss.C81_violated"
   ],
   "note": "violated for the non-convex mesh (full statement: C81_statement)"
  },
  {
   "property": "C82",
   "status": "proved",
   "theorems": [
    "Dxss.C82_interval",
    "Dxss.C82_box",
    "Dxss.C82_box_two",
    "Dxss.C82_flag",
    "Dxss.C82_all_around"
   ],
   "note": "about the meshes and indicator functions; the constructor itself interpolates another function, see C35"
  },
  {
   "property": "C83",
   "status": "partial",
   "theorems": [
    "Dxss.Par.C83_raises",
    "Dxss.Par.C83_returns_partial",
    "Dxss.Par.C83_sequential",
    "Dxss.Example.C83_violated"
   ],
   "note": "violated on ranks with ghost dofs (full statement: Par.C83_statement)"
  },
  {
   "property": "C84",
   "status": "proved",
   "theorems": [
    "Dxss.C84_recovers_iff",
    "Dxss.C84_recovered_jumps_tiny",
    "Dxss.C84_finite_termination",
    "Dxss.C84_gmres_returns"
   ],
   "note": "GMRES in exact arithmetic is the contract ExactGmres; data: Cfg.ObservableAll, met by Determined data (determined_observes)"
  },
  {
   "property": "C85",
   "status": "proved",
   "theorems": [
    "Dxss.C85_prolongation",
    "Dxss.C85_restriction",
    "Dxss.C85_round_trip",
    "Dxss.C85_q_op"
   ],
   "note": "one scalar space for all components (OneSpace), as in the scripts; interpolation is an arbitrary linear map given to the mesh"
  },
  {
   "property": "C86",
   "status": "partial",
   "theorems": [
    "Dxss.C86_failed_partial",
    "Dxss.C86_retry",
    "Dxss.Example.C86_violated"
   ],
   "note": "C86_statement is false: after a failing assembly the transfers are new and the matrix old; sizes of the coarse work vectors are not modelled"
  },
  {
   "property": "C87",
   "status": "partial",
   "theorems": [
    "Dxss.C87_retry_partial",
    "Dxss.C87_bad_steps",
    "Dxss.Example.C87_violated"
   ],
   "note": "C87_statement is false for three allocations"
  },
  {
   "property": "C88",
   "status": "partial",
   "theorems": [
    "Dxss.C88_no_trace_partial",
    "Dxss.C88_requests_return",
    "Dxss.C88_slab_interrupted",
    "Dxss.C88_slab_undisturbed",
    "Dxss.C88_slab_recovers_partial",
    "Dxss.Example.C88_violated"
   ],
   "note": "C88_statement is false for the slab matrix and form; setup_spacetime_finite_elements is modelled as one step, no claim about it"
  },
  {
   "property": "C89",
   "status": "proved",
   "theorems": [
    "Dxss.C89_time_rate",
    "Dxss.C89_semidiscrete_rate"
   ],
   "note": "Uses C71; interpolation error at the equidistant nodes by repeated Rolle. The example is the standing wave for every number of slabs."
  },
  {
   "property": "C90",
   "status": "proved",
   "theorems": [
    "Dxss.C90_reported_errors"
   ],
   "note": "Data together with boundary values and jumps of the gradient determine the functions (Cfg.Determined); the negative powers of dt come from the weights of the stabilisation. The example is the standing wave for every number of slabs."
  },
  {
   "property": "C91",
   "status": "partial",
   "theorems": [
    "Dxss.C91_system_partial",
    "Dxss.C91_recovers",
    "Dxss.C91_missing_row",
    "Dxss.C91_fails",
    "Dxss.Example.C91_violated"
   ],
   "note": "C91_statement is false: the slab matrices lack the adjoint interface terms; C91_system_partial is the exact system"
  },
  {
   "property": "C92",
   "status": "proved",
   "theorems": [
    "Dxss.C92_determined",
    "Dxss.C92_unique_solution",
    "Dxss.C92_solve_1d"
   ],
   "note": "Space forms written out for interval meshes (Model/Interval); linear elements only: for higher orders the jumps of the gradient do not control the functions"
  },
  {
   "property": "C93",
   "status": "partial",
   "theorems": [
    "Dxss.C93_solution_partial",
    "Dxss.C93_run",
    "Dxss.C93_sample",
    "Dxss.Example.C93_violated"
   ],
   "note": "C93_statement is false: the reported errors are those of the zero function. Integrals of the sample solution are exact in the model."
  },
  {
   "property": "C94",
   "status": "proved",
   "theorems": [
    "Dxss.C94_solution",
    "Dxss.C94_consistency"
   ],
   "note": "Waves are analytic in space (the functions of Model/Interval). Uses C64; Green's formula on interval meshes proved with the fluxes of Model/Interval. Example: the sample solution of solve_1d.py."
  },
  {
   "property": "C95",
   "status": "proved",
   "theorems": [
    "Dxss.C95_error",
    "Dxss.C95_half"
   ],
   "note": "Uses C71 with explicit constants; linear elements; constants not sharp. Example.solveN: the system is uniquely solvable and the report exists for every N, n with n*N <= 1e16; Example.solve20000 is a concrete instance."
  },
  {
   "property": "C96",
   "status": "proved",
   "theorems": [
    "Dxss.C96_history",
    "Dxss.C96_content"
   ],
   "note": "Op.Involves lists the vectors passed to a call; return values of the requests are compared in SameBut"
  },
  {
   "property": "C97",
   "status": "partial",
   "theorems": [
    "Dxss.C97_shared",
    "Dxss.C97_unnoticed_partial",
    "Dxss.C97_rebuild_partial",
    "Dxss.Example.C97_violated"
   ],
   "note": "C97_statement is false: the cached vector itself is handed out"
  },
  {
   "property": "C98",
   "status": "proved",
   "theorems": [
    "Dxss.C98_complete",
    "Dxss.C98_reads",
    "Dxss.C98_missing",
    "Dxss.C98_missing_reported"
   ],
   "note": "Model/StabDict makes the look-ups where the code makes them; Op.reads lists the entries a call needs"
  },
  {
   "property": "C99",
   "status": "partial",
   "theorems": [
    "Dxss.C99_settled_partial",
    "Dxss.C99_removed",
    "Dxss.C99_refresh_partial",
    "Dxss.C99_provenance_partial",
    "Dxss.C99_unchanged_partial",
    "Dxss.C99_mixed",
    "Dxss.C99_stale",
    "Dxss.Example.C99_violated"
   ],
   "note": "C99_statement is false: cached operators keep the old values"
  },
  {
   "property": "C100",
   "status": "proved",
   "theorems": [
    "Dxss.C100_numbering",
    "Dxss.C100_same_function"
   ],
   "note": "the scalar spaces and their basis functions are the same for both objects; entries beyond the last dof are kept equal"
  },
  {
   "property": "C101",
   "status": "partial",
   "theorems": [
    "Dxss.C101_independent_partial",
    "Dxss.C101_unfitted_partial",
    "Dxss.C101_settled_partial",
    "Dxss.C101_harmless",
    "Dxss.C101_repair",
    "Dxss.C101_disturbed",
    "Dxss.Example.C101_violated"
   ],
   "note": "C101_statement is false: with fitted=True the constructor of another object replaces the indicator in the shared domain"
  },
  {
   "property": "C102",
   "status": "proved",
   "theorems": [
    "Dxss.C102_determined",
    "Dxss.C102_unique_solution",
    "Dxss.C102_solve_3d"
   ],
   "note": "Space forms written out for grids of boxes (Model/Grid); elements of order 1"
  },
  {
   "property": "C103",
   "status": "partial",
   "theorems": [
    "Dxss.C103_solution_partial",
    "Dxss.C103_run",
    "Dxss.C103_sample",
    "Dxss.Example.C103_violated"
   ],
   "note": "C103_statement is false: the reported errors are those of the zero vector. Integrals of the sample solution are exact in the model."
  },
  {
   "property": "C104",
   "status": "proved",
   "theorems": [
    "Dxss.C104_solution",
    "Dxss.C104_consistency",
    "Dxss.C104_solve_3d"
   ],
   "note": "Waves are analytic in space (the functions of Model/Grid). Uses C64; Green's formula on grids of boxes proved with the facet integrals of Model/Grid. solve_3d.py itself leaves out the initial values (C35)."
  },
  {
   "property": "C105",
   "status": "proved",
   "theorems": [
    "Dxss.C105_standing_wave",
    "Dxss.C105_error",
    "Dxss.C105_half"
   ],
   "note": "Uses C71 with explicit constants, multilinear elements; constants not sharp. Example.solve3N: the system is uniquely solvable and the report exists for all N, k with k*N <= 1e16; Example.solve1000 is a concrete instance."
  },
  {
   "property": "C106",
   "status": "proved",
   "theorems": [
    "Dxss.C106_start",
    "Dxss.C106_energy_definite",
    "Dxss.C106_observable",
    "Dxss.C106_unique_solution",
    "Dxss.C106_interval",
    "Dxss.C106_grid"
   ],
   "note": "The constant K exists by compactness; C107 gives one for intervals. Other meshes: C106_unique_solution with elliptic_of_green."
  },
  {
   "property": "C107",
   "status": "proved",
   "theorems": [
    "Dxss.C107_control",
    "Dxss.C107_observable",
    "Dxss.C107_elliptic",
    "Dxss.C107_unique_solution",
    "Dxss.C107_solve_1d"
   ],
   "note": "Explicit constants, not sharp. Lagrange elements of order k as the polynomials of Lemmas/Pk; ORDER is a module constant of the script (solve_1d.py:65-69)."
  },
  {
   "property": "C108",
   "status": "partial",
   "theorems": [
    "Dxss.C108_solution_partial",
    "Dxss.Example.C108_violated"
   ],
   "note": "C108_statement k is false for k = 1, 2, 3: the reported errors are those of the zero function."
  },
  {
   "property": "C109",
   "status": "proved",
   "theorems": [
    "Dxss.C109_solution",
    "Dxss.C109_consistency",
    "Dxss.C109_solve_2d",
    "Dxss.C109_sample"
   ],
   "note": "Waves analytic in space. The gmsh mesh of solve_2d.py is not modelled: any triangulation whose boundary edges lie on the boundary of the unit square (Tri.BdSquare)."
  },
  {
   "property": "C110",
   "status": "proved",
   "theorems": [
    "Dxss.C110_every_mesh",
    "Dxss.C110_elliptic",
    "Dxss.C110_unique_solution",
    "Dxss.C110_solve_2d",
    "Dxss.C110_mesh_sizes",
    "Dxss.C110_triangles"
   ],
   "note": "Explicit constants, not sharp, for elements up to order 3 in space; for other orders existence of the constant."
  },
  {
   "property": "C111",
   "status": "partial",
   "theorems": [
    "Dxss.C111_solution_partial",
    "Dxss.C111_run",
    "Dxss.Example.C111_violated"
   ],
   "note": "C111_statement is false: the reported errors are those of the zero vector. The triangulation is arbitrary, its tiling of the unit square and bounds for edges and areas are hypotheses; the witness is the square cut along a diagonal."
  },
  {
   "property": "C112",
   "status": "proved",
   "theorems": [
    "Dxss.C112_error",
    "Dxss.C112_unique",
    "Dxss.C112_reconstruct"
   ],
   "note": "Exact arithmetic; the tiling of the square and the bounds for edges and areas are hypotheses on the triangulation, met for instance by k x k squares cut along their diagonals (Tri.squares)."
  },
  {
   "property": "C113",
   "status": "proved",
   "theorems": [
    "Dxss.Tri.C113_refine",
    "Dxss.Tri.C113_nested",
    "Dxss.C113_hierarchy",
    "Dxss.C113_unique",
    "Dxss.C113_reports"
   ],
   "note": "How DOLFINx divides a triangle is taken from its documentation (Tri.refine); gmsh's initial mesh is any triangulation."
  },
  {
   "property": "C114",
   "status": "proved",
   "theorems": [
    "Dxss.C114_fit",
    "Dxss.C114_solve_1d",
    "Dxss.C114_solve_2d",
    "Dxss.C114_solve_3d",
    "Dxss.Example.C114_script"
   ],
   "note": "Exact arithmetic; the misfit (Spec.misfit) is that of the finite element function, not of a reported quantity. Example.fit2: 100 slabs and 2*200^2 triangles with data on any union of triangles; Example.fit3: 100 slabs and 100^3 cells."
  },
  {
   "property": "C115",
   "status": "proved",
   "theorems": [
    "Dxss.C115_error",
    "Dxss.C115_unique",
    "Dxss.C115_half"
   ],
   "note": "Continues C95, with smaller constants. The interpolant is piecewise linear for each order, so the bound does not improve with the order."
  },
  {
   "property": "C116",
   "status": "partial",
   "theorems": [
    "Dxss.C116_solution_partial",
    "Dxss.Example.C116_violated"
   ],
   "note": "C116_statement k is false for k = 1, 2, 3: the misfit is almost that of the zero function."
  },
  {
   "property": "C117",
   "status": "proved",
   "theorems": [
    "Dxss.C117_noise",
    "Dxss.C117_everywhere",
    "Dxss.C117_solve_1d",
    "Dxss.C117_solve_2d",
    "Dxss.C117_solve_3d"
   ],
   "note": "C70 bounds the stability energy of the difference; here the reported errors."
  },
  {
   "property": "C118",
   "status": "proved",
   "theorems": [
    "Dxss.C118_elliptic",
    "Dxss.C118_bound",
    "Dxss.C118_solve_1d",
    "Dxss.C118_solve_2d",
    "Dxss.C118_solve_3d"
   ],
   "note": "Exact arithmetic; without forward jumps (jumps_in_fw_problem=False, as in the scripts). Cfg.PrecondSolvable names the conclusion for the three matrices."
  },
  {
   "property": "C119",
   "status": "proved",
   "theorems": [
    "Dxss.C119_few_steps",
    "Dxss.C119_observable",
    "Dxss.C119_solve_1d",
    "Dxss.C119_solve_2d",
    "Dxss.C119_solve_3d"
   ],
   "note": "Exact arithmetic. The scripts themselves pass no restart (1000 by default) with maxsteps=100000: for them only the statement on the span applies if r >= 1000."
  },
  {
   "property": "C120",
   "status": "partial",
   "theorems": [
    "Dxss.C120_solve_2d_partial",
    "Dxss.C120_solve_3d_partial",
    "Dxss.Example.C120_violated_2d",
    "Dxss.Example.C120_violated_3d"
   ],
   "note": "C120_statement_2d and C120_statement_3d are false: the misfit is almost that of the zero function. The witness in two dimensions is the square divided into 200 triangles with the data domain of the script; in three dimensions the mesh and data domain of the script."
  },
  {
   "property": "C121",
   "status": "proved",
   "theorems": [
    "Dxss.C121_form_then_matrix",
    "Dxss.C121_matrix_then_form",
    "Dxss.C121_slab_forms",
    "Dxss.C121_rhs_form",
    "Dxss.C121_form_of_rhs"
   ],
   "note": "Exact arithmetic; the assembly of DOLFINx is modelled as evaluation of the form on the basis functions. The slab pairs may even come from two objects of the same configuration."
  }
 ]
}
