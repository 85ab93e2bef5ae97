# Axioms used by the theorems of MANIFEST.json

Output of `#print axioms`, grouped (`tools/axioms.py`).

## propext

* `Dxss.C36_unpacking`

## propext, Classical.choice, Quot.sound

* `Dxss.C01_table_shape`
* `Dxss.C01_basis_nodal`
* `Dxss.C01_basis_nodal_zero`
* `Dxss.C01_partition_of_unity`
* `Dxss.C02_derivative_table`
* `Dxss.C03_elmat_integrals`
* `Dxss.C03_elmat_keyError`
* `Dxss.C04_definiteness`
* `Dxss.C05_integration_by_parts`
* `Dxss.C06_guard_entries`
* `Dxss.C06_guard_harmless`
* `Dxss.C07_rejects`
* `Dxss.C07_unknown_name`
* `Dxss.C07_accepts`
* `Dxss.C08_polynomial_exactness`
* `Dxss.C09_radau4_error`
* `Dxss.C09_radau5_error`
* `Dxss.C10_lifting_polynomial`
* `Dxss.C11_spacetime_indices`
* `Dxss.C11_slab_indices`
* `Dxss.C11_coupling_indices`
* `Dxss.C11_interface_mass_indices`
* `Dxss.C11_rhs_indices`
* `Dxss.C11_preload_indices`
* `Dxss.C11_forms_returned`
* `Dxss.C11_lfi_returned`
* `Dxss.C12_form_is_variational`
* `Dxss.C12_matrix`
* `Dxss.C12_bfi`
* `Dxss.C12_slab_matrix`
* `Dxss.C13_symmetric`
* `Dxss.C13_precond_asymmetry`
* `Dxss.C13_precond_not_symmetric`
* `Dxss.C13_matrix`
* `Dxss.C14_stability_identity`
* `Dxss.C14_energy_nonneg`
* `Dxss.C14_matrix`
* `Dxss.C15_unique_solution`
* `Dxss.C16_slab_unique_solution`
* `Dxss.C17_matrix_free_product`
* `Dxss.C17_returned_matrix`
* `Dxss.C18_exact_discrepancy_partial`
* `Dxss.C18_violated`
* `Dxss.C18_violated_well_posed`
* `Dxss.C18_violated_fw_jumps`
* `Dxss.C18_api_partial`
* `Dxss.C18_api_violated`
* `Dxss.C19_depends_on_input_only`
* `Dxss.C19_linear`
* `Dxss.C19_frame`
* `Dxss.C19_alias_zero`
* `Dxss.C19_api_input_only`
* `Dxss.C19_api_linear`
* `Dxss.C19_api_alias`
* `Dxss.C20_time_marching_solves`
* `Dxss.C20_returns`
* `Dxss.C21_recovers`
* `Dxss.C21_returned_matrices`
* `Dxss.C22_variants_agree`
* `Dxss.C22_same_when_placeholder_zero`
* `Dxss.C22_api`
* `Dxss.C23_causal`
* `Dxss.C23_causal_first_variant`
* `Dxss.C23_api`
* `Dxss.C24_depends_on_rhs_only`
* `Dxss.C24_depends_on_rhs_only_first_variant`
* `Dxss.C24_frame`
* `Dxss.C24_linear`
* `Dxss.C24_api`
* `Dxss.C24_api_linear`
* `Dxss.C25_rejected`
* `Dxss.C25_only_then`
* `Dxss.C25_api`
* `Dxss.C26_failure_frame`
* `Dxss.C26_retry_like_fresh`
* `Dxss.C26_api`
* `Dxss.C27_documented_sequence`
* `Dxss.C28_always_fails`
* `Dxss.Example.C28_violated`
* `Dxss.C28_product_unaffected_partial`
* `Dxss.C29_always_fails`
* `Dxss.C29_never_without_slab_request`
* `Dxss.Example.C29_violated`
* `Dxss.C29_explicit_setup_partial`
* `Dxss.C30_matrix_stable`
* `Dxss.C30_form_stable`
* `Dxss.C30_rhs_stable`
* `Dxss.C30_linear_form_stable`
* `Dxss.C30_slab_matrix_stable`
* `Dxss.C30_slab_form_stable`
* `Dxss.C30_first_slab_stable`
* `Dxss.C30_operators_stable`
* `Dxss.C31_operators_correct`
* `Dxss.C31_product_correct`
* `Dxss.C31_product_form`
* `Dxss.C31_slab_product`
* `Dxss.C31_coupling_product`
* `Dxss.C32_always_fails`
* `Dxss.Example.C32_violated`
* `Dxss.C32_same_flag_partial`
* `Dxss.C32_api_always_fails`
* `Dxss.Example.C32_api_violated`
* `Dxss.C33_api_not_well_posed_partial`
* `Dxss.C33_api_wrong_data`
* `Dxss.Example.C33_api_violated`
* `Dxss.C33_not_well_posed_partial`
* `Dxss.C33_initial_data_partial`
* `Dxss.C33_overwritten`
* `Dxss.C33_wrong_data`
* `Dxss.C33_reset_partial`
* `Dxss.C33_latest_partial`
* `Dxss.Example.C33_violated`
* `Dxss.C34_retry_partial`
* `Dxss.C34_bad_steps`
* `Dxss.C34_no_other_steps`
* `Dxss.C34_violated`
* `Dxss.C34_first_allocation_permanent`
* `Dxss.C35_unfitted_partial`
* `Dxss.Example.C35_violated`
* `Dxss.C35_fitted_discards`
* `Dxss.C35_no_data_term`
* `Dxss.C35_no_data_in_rhs`
* `Dxss.C36_zero_division`
* `Dxss.C36_key_error`
* `Dxss.C36_failure_frame`
* `Dxss.C36_derived`
* `Dxss.C37_prolongation`
* `Dxss.C37_restriction`
* `Dxss.C37_every_entry`
* `Dxss.C37_every_entry_restriction`
* `Dxss.C37_round_trip`
* `Dxss.C37_prolongation_shape_error`
* `Dxss.C37_restriction_shape_error`
* `Dxss.C38_value`
* `Dxss.C38_depends_on_input_only`
* `Dxss.C38_linear`
* `Dxss.C38_exact_on_coarse`
* `Dxss.C38_ready`
* `Dxss.C38_needs_rhs`
* `Dxss.C39_intended_partial`
* `Dxss.C39_always_fails`
* `Dxss.Example.C39_violated`
* `Dxss.C40_top`
* `Dxss.C40_matching`
* `Dxss.C40_derivative`
* `Dxss.C40_continuous`
* `Dxss.C40_recon`
* `Dxss.C40_recon_derivative`
* `Dxss.C41_samples`
* `Dxss.C41_covered`
* `Dxss.C41_neighbours`
* `Dxss.C41_at_most_two`
* `Dxss.C41_same_value`
* `Dxss.C41_maxima_defined`
* `Dxss.C42_report`
* `Dxss.C42_nonneg`
* `Dxss.C42_final_le_max`
* `Dxss.C42_exact`
* `Dxss.C42_any_history`
* `Dxss.C42_returns`
* `Dxss.C43_tables`
* `Dxss.C43_plot`
* `Dxss.C43_plot_error`
* `Dxss.C43_any_history`
* `Dxss.C43_error_any_history`
* `Dxss.C43_returns`
* `Dxss.Gmres.C44_success`
* `Dxss.Gmres.C44_failure`
* `Dxss.Gmres.C44_errors`
* `Dxss.Gmres.C44_iff`
* `Dxss.Gmres.C44_tolerance`
* `Dxss.Gmres.C45_arguments`
* `Dxss.Gmres.C45_effective`
* `Dxss.Gmres.C45_monitor`
* `Dxss.Gmres.C45_database`
* `Dxss.Gmres.C45_persists`
* `Dxss.C46_backend`
* `Dxss.C46_completes`
* `Dxss.C46_diverged`
* `Dxss.C47_zero_partial`
* `Dxss.Example.C47_violated`
* `Dxss.C48_conversion`
* `Dxss.C48_entries`
* `Dxss.C48_square`
* `Dxss.C48_solver`
* `Dxss.C49_hierarchy`
* `Dxss.C49_all_marked`
* `Dxss.C49_uniform`
* `Dxss.C49_convex`
* `Dxss.C50_violated`
* `Dxss.C50_never`
* `Dxss.C50_refuses_exactly`
* `Dxss.C50_rows_partial`
* `Dxss.C50_cells`
* `Dxss.C50_mesh_partial`
* `Dxss.C50_tables`
* `Dxss.C50_square_never`
* `Dxss.C51_points`
* `Dxss.C52_marker`
* `Dxss.C52_surfaces`
* `Dxss.C52_only`
* `Dxss.C52_boundary`
* `Dxss.C52_counted`
* `Dxss.C53_convex1`
* `Dxss.C53_noGcc1`
* `Dxss.C53_convex2`
* `Dxss.C53_gcc3`
* `Dxss.C53_noGcc3`
* `Dxss.C53_ufl`
* `Dxss.C53_agree`
* `Dxss.Files.C54_synchronised`
* `Dxss.Files.C54_one_call`
* `Dxss.Files.C54_no_deadlock`
* `Dxss.Files.C54_not_synchronised`
* `Dxss.C55_cover`
* `Dxss.C55_inside`
* `Dxss.C55_disjoint`
* `Dxss.C55_target`
* `Dxss.C56_order`
* `Dxss.C56_argument`
* `Dxss.C56_prereleases`
* `Dxss.C56_strict_order`
* `Dxss.C56_local`
* `Dxss.C57_violated`
* `Dxss.C57_partial`
* `Dxss.Files.C58_tags_overwritten`
* `Dxss.Files.C58_one_process`
* `Dxss.Files.C58_last_call`
* `Dxss.C59_violated`
* `Dxss.C59_overlap`
* `Dxss.C59_partial`
* `Dxss.C60_violated`
* `Dxss.C60_unit_partial`
* `Dxss.C61_slab_forward_jumps`
* `Dxss.C62_one_sided_unique_solution`
* `Dxss.C62_exact_slab_solvers`
* `Dxss.C63_rhs_form`
* `Dxss.C63_rhs_vector`
* `Dxss.C64_consistency`
* `Dxss.C64_quadrature_error`
* `Dxss.C65_error_identity`
* `Dxss.Example.C66_violated`
* `Dxss.C66_construct_partial`
* `Dxss.C66_placeholder_only`
* `Dxss.C66_same_system`
* `Dxss.C66_solution_energy`
* `Dxss.Script.C67_derivative`
* `Dxss.Script.C67_wave_equation`
* `Dxss.Script.C67_boundary`
* `Dxss.Script.C67_nontrivial`
* `Dxss.C67_solution_1d`
* `Dxss.C68_observable_unique_solution`
* `Dxss.C68_full_data_observe`
* `Dxss.C68_initial_values_observe`
* `Dxss.Example.C69_violated`
* `Dxss.C69_window_partial`
* `Dxss.C70_stability`
* `Dxss.C71_error_estimate`
* `Dxss.C72_files`
* `Dxss.C72_same_value`
* `Dxss.C72_effect`
* `Dxss.C72_any_history`
* `Dxss.Par.C73_raises`
* `Dxss.Par.C73_loaded_partial`
* `Dxss.Par.C73_violated`
* `Dxss.Par.C74_raises`
* `Dxss.Par.C74_returns_partial`
* `Dxss.Par.C74_returns_iff`
* `Dxss.Par.C74_sequential`
* `Dxss.Example.C74_violated`
* `Dxss.Par.C75_missing_cells`
* `Dxss.Par.C75_right_hand_side_partial`
* `Dxss.Example.C75_violated`
* `Dxss.Fl.C76_violated`
* `Dxss.Fl.C76_power_of_two_partial`
* `Dxss.Fl.C76_missed_near_boundary_partial`
* `Dxss.Fl.C76_rounding`
* `Dxss.C77_any_history`
* `Dxss.C77_last_mesh`
* `Dxss.C77_uniquely_solvable`
* `Dxss.C78_matrices_available`
* `Dxss.C78_preconditioner_solves`
* `Dxss.C78_solvers_exist`
* `Dxss.C78_one_sided_unique_solution`
* `Dxss.C79_residual_bounds_error`
* `Dxss.C79_gmres_error`
* `Dxss.C79_error_estimate`
* `Dxss.C79_maps_exist`
* `Dxss.C80_only_output`
* `Dxss.C80_history`
* `Dxss.C80_input_kept`
* `Dxss.C81_convex_partial`
* `Dxss.C81_nonconvex_exchanged`
* `Dxss.C81_violated`
* `Dxss.C82_interval`
* `Dxss.C82_box`
* `Dxss.C82_box_two`
* `Dxss.C82_flag`
* `Dxss.C82_all_around`
* `Dxss.Par.C83_raises`
* `Dxss.Par.C83_returns_partial`
* `Dxss.Par.C83_sequential`
* `Dxss.Example.C83_violated`
* `Dxss.C84_recovers_iff`
* `Dxss.C84_recovered_jumps_tiny`
* `Dxss.C84_finite_termination`
* `Dxss.C84_gmres_returns`
* `Dxss.C85_prolongation`
* `Dxss.C85_restriction`
* `Dxss.C85_round_trip`
* `Dxss.C85_q_op`
* `Dxss.C86_failed_partial`
* `Dxss.C86_retry`
* `Dxss.Example.C86_violated`
* `Dxss.C87_retry_partial`
* `Dxss.C87_bad_steps`
* `Dxss.Example.C87_violated`
* `Dxss.C88_no_trace_partial`
* `Dxss.C88_requests_return`
* `Dxss.C88_slab_interrupted`
* `Dxss.C88_slab_undisturbed`
* `Dxss.C88_slab_recovers_partial`
* `Dxss.Example.C88_violated`
* `Dxss.C89_time_rate`
* `Dxss.C89_semidiscrete_rate`
* `Dxss.C90_reported_errors`
* `Dxss.C91_system_partial`
* `Dxss.C91_recovers`
* `Dxss.C91_missing_row`
* `Dxss.C91_fails`
* `Dxss.Example.C91_violated`
* `Dxss.C92_determined`
* `Dxss.C92_unique_solution`
* `Dxss.C92_solve_1d`
* `Dxss.C93_solution_partial`
* `Dxss.C93_run`
* `Dxss.C93_sample`
* `Dxss.Example.C93_violated`
* `Dxss.C94_solution`
* `Dxss.C94_consistency`
* `Dxss.C95_error`
* `Dxss.C95_half`
* `Dxss.C96_history`
* `Dxss.C96_content`
* `Dxss.C97_shared`
* `Dxss.C97_unnoticed_partial`
* `Dxss.C97_rebuild_partial`
* `Dxss.Example.C97_violated`
* `Dxss.C98_complete`
* `Dxss.C98_reads`
* `Dxss.C98_missing`
* `Dxss.C98_missing_reported`
* `Dxss.C99_settled_partial`
* `Dxss.C99_removed`
* `Dxss.C99_refresh_partial`
* `Dxss.C99_provenance_partial`
* `Dxss.C99_unchanged_partial`
* `Dxss.C99_mixed`
* `Dxss.C99_stale`
* `Dxss.Example.C99_violated`
* `Dxss.C100_numbering`
* `Dxss.C100_same_function`
* `Dxss.C101_independent_partial`
* `Dxss.C101_unfitted_partial`
* `Dxss.C101_settled_partial`
* `Dxss.C101_harmless`
* `Dxss.C101_repair`
* `Dxss.C101_disturbed`
* `Dxss.Example.C101_violated`
* `Dxss.C102_determined`
* `Dxss.C102_unique_solution`
* `Dxss.C102_solve_3d`
* `Dxss.C103_solution_partial`
* `Dxss.C103_run`
* `Dxss.C103_sample`
* `Dxss.Example.C103_violated`
* `Dxss.C104_solution`
* `Dxss.C104_consistency`
* `Dxss.C104_solve_3d`
* `Dxss.C105_standing_wave`
* `Dxss.C105_error`
* `Dxss.C105_half`
* `Dxss.C106_start`
* `Dxss.C106_energy_definite`
* `Dxss.C106_observable`
* `Dxss.C106_unique_solution`
* `Dxss.C106_interval`
* `Dxss.C106_grid`
* `Dxss.C107_control`
* `Dxss.C107_observable`
* `Dxss.C107_elliptic`
* `Dxss.C107_unique_solution`
* `Dxss.C107_solve_1d`
* `Dxss.C108_solution_partial`
* `Dxss.Example.C108_violated`
* `Dxss.C109_solution`
* `Dxss.C109_consistency`
* `Dxss.C109_solve_2d`
* `Dxss.C109_sample`
* `Dxss.C110_every_mesh`
* `Dxss.C110_elliptic`
* `Dxss.C110_unique_solution`
* `Dxss.C110_solve_2d`
* `Dxss.C110_mesh_sizes`
* `Dxss.C110_triangles`
* `Dxss.C111_solution_partial`
* `Dxss.C111_run`
* `Dxss.Example.C111_violated`
* `Dxss.C112_error`
* `Dxss.C112_unique`
* `Dxss.C112_reconstruct`
* `Dxss.Tri.C113_refine`
* `Dxss.Tri.C113_nested`
* `Dxss.C113_hierarchy`
* `Dxss.C113_unique`
* `Dxss.C113_reports`
* `Dxss.C114_fit`
* `Dxss.C114_solve_1d`
* `Dxss.C114_solve_2d`
* `Dxss.C114_solve_3d`
* `Dxss.Example.C114_script`
* `Dxss.C115_error`
* `Dxss.C115_unique`
* `Dxss.C115_half`
* `Dxss.C116_solution_partial`
* `Dxss.Example.C116_violated`
* `Dxss.C117_noise`
* `Dxss.C117_everywhere`
* `Dxss.C117_solve_1d`
* `Dxss.C117_solve_2d`
* `Dxss.C117_solve_3d`
* `Dxss.C118_elliptic`
* `Dxss.C118_bound`
* `Dxss.C118_solve_1d`
* `Dxss.C118_solve_2d`
* `Dxss.C118_solve_3d`
* `Dxss.C119_few_steps`
* `Dxss.C119_observable`
* `Dxss.C119_solve_1d`
* `Dxss.C119_solve_2d`
* `Dxss.C119_solve_3d`
* `Dxss.C120_solve_2d_partial`
* `Dxss.C120_solve_3d_partial`
* `Dxss.Example.C120_violated_2d`
* `Dxss.Example.C120_violated_3d`
* `Dxss.C121_form_then_matrix`
* `Dxss.C121_matrix_then_form`
* `Dxss.C121_slab_forms`
* `Dxss.C121_rhs_form`
* `Dxss.C121_form_of_rhs`

## propext, Quot.sound

* `Dxss.C56_releases`
