"""Writes MANIFEST.json from the table below, checking every theorem name against the sources."""
import json
import pathlib
import re

ROOT = pathlib.Path(__file__).resolve().parent.parent
CLAIMS = [
    ("C01", "proved", ["C01_table_shape", "C01_basis_nodal", "C01_basis_nodal_zero", "C01_partition_of_unity"], ""),
    ("C02", "proved", ["C02_derivative_table"], ""),
    ("C03", "proved", ["C03_elmat_integrals", "C03_elmat_keyError"], ""),
    ("C04", "proved", ["C04_definiteness"], ""),
    ("C05", "proved", ["C05_integration_by_parts"], ""),
    ("C06", "proved", ["C06_guard_entries", "C06_guard_harmless"], ""),
    ("C07", "proved", ["C07_rejects", "C07_unknown_name", "C07_accepts"], ""),
    ("C08", "proved", ["C08_polynomial_exactness"], ""),
    ("C09", "proved", ["C09_radau4_error", "C09_radau5_error"], ""),
    ("C10", "proved", ["C10_lifting_polynomial"], ""),
    ("C11", "proved", ["C11_spacetime_indices", "C11_slab_indices", "C11_coupling_indices",
        "C11_interface_mass_indices", "C11_rhs_indices", "C11_preload_indices", "C11_forms_returned", "C11_lfi_returned"], ""),
    ("C12", "proved", ["C12_form_is_variational", "C12_matrix", "C12_bfi", "C12_slab_matrix"], ""),
    ("C13", "proved", ["C13_symmetric", "C13_precond_asymmetry", "C13_precond_not_symmetric", "C13_matrix"], ""),
    ("C14", "proved", ["C14_stability_identity", "C14_energy_nonneg", "C14_matrix"], ""),
    ("C15", "proved", ["C15_unique_solution"], "exact arithmetic; the spatial mass forms are assumed definite and the finite-element basis independent"),
    ("C16", "proved", ["C16_slab_unique_solution"], "as C15; any number of slabs, either value of well_posed"),
    ("C17", "proved", ["C17_matrix_free_product", "C17_returned_matrix"], ""),
    ("C18", "partial", ["C18_exact_discrepancy_partial", "C18_violated", "C18_violated_well_posed", "C18_violated_fw_jumps", "C18_api_partial", "C18_api_violated"],
        "The code violates the property: the matrix-free product omits the initial-data terms (well_posed) and "
        "the forward-jump terms. Proved: the exact discrepancy for every configuration and, in each of the two "
        "configurations, a witness where the products differ."),
    ("C19", "proved", ["C19_depends_on_input_only", "C19_linear", "C19_frame", "C19_alias_zero", "C19_api_input_only", "C19_api_linear", "C19_api_alias"], ""),
    ("C20", "proved", ["C20_time_marching_solves", "C20_returns"], ""),
    ("C21", "proved", ["C21_recovers", "C21_returned_matrices"], ""),
    ("C22", "proved", ["C22_variants_agree", "C22_same_when_placeholder_zero", "C22_api"], ""),
    ("C23", "proved", ["C23_causal", "C23_causal_first_variant", "C23_api"], ""),
    ("C24", "proved", ["C24_depends_on_rhs_only", "C24_depends_on_rhs_only_first_variant", "C24_frame", "C24_linear", "C24_api", "C24_api_linear"], ""),
    ("C25", "proved", ["C25_rejected", "C25_only_then", "C25_api"], ""),
    ("C26", "proved", ["C26_failure_frame", "C26_retry_like_fresh", "C26_api"], ""),
    ("C27", "proved", ["C27_documented_sequence"], ""),
    ("C28", "partial", ["C28_always_fails", "Example.C28_violated", "C28_product_unaffected_partial"],
        "The code violates the property (full statement: C28_statement): after an early get_slab_matrix the work "
        "vector of the preconditioner is never allocated and every later application raises AttributeError. "
        "Proved: this failure for every later history, and that the matrix-free product is unaffected."),
    ("C29", "partial", ["C29_always_fails", "C29_never_without_slab_request", "Example.C29_violated",
        "C29_explicit_setup_partial"],
        "The code violates the property (full statement: C29_statement): with well_posed=True preparation does not "
        "build the jump-free slab matrix, so the product raises AttributeError. Proved: the failure in every such "
        "configuration and every history without an explicit slab request, and that an explicit "
        "setup_slab_matrix(False) repairs it."),
    ("C30", "proved", ["C30_matrix_stable", "C30_form_stable", "C30_rhs_stable", "C30_linear_form_stable",
        "C30_slab_matrix_stable", "C30_slab_form_stable", "C30_first_slab_stable", "C30_operators_stable"], ""),
    ("C31", "proved", ["C31_operators_correct", "C31_product_correct", "C31_product_form", "C31_slab_product",
        "C31_coupling_product"], ""),
    ("C32", "partial", ["C32_always_fails", "Example.C32_violated", "C32_same_flag_partial", "C32_api_always_fails",
        "Example.C32_api_violated"],
        "The code violates the property (full statement: C32_statement): the cache ignores precond. Proved: the "
        "wrong matrix is returned for ever after a request with the other flag, and the right one if all requests "
        "used the same flag."),
    ("C33", "partial", ["C33_api_not_well_posed_partial", "C33_api_wrong_data", "Example.C33_api_violated",
        "C33_not_well_posed_partial", "C33_initial_data_partial", "C33_overwritten", "C33_wrong_data",
        "C33_reset_partial", "C33_latest_partial", "Example.C33_violated"],
        "The code violates the property for well_posed=True (full statement: C33_statement): measured_errors and "
        "plot_para_view overwrite the initial data. Proved: it holds for well_posed=False after any history, and for "
        "well_posed=True if neither is called before the first request; and exactly which data is used otherwise."),
    ("C34", "partial", ["C34_retry_partial", "C34_bad_steps", "C34_no_other_steps", "C34_violated",
        "C34_first_allocation_permanent"],
        "The code violates the property at exactly three steps (full statement: C34_statement), the vector "
        "allocations after the guarding matrix has been stored. Proved: retry restores the undisturbed result at "
        "every other step, and fails at these three; the first is permanent."),
    ("C35", "partial", ["C35_unfitted_partial", "Example.C35_violated", "C35_fitted_discards", "C35_no_data_term",
        "C35_no_data_in_rhs"],
        "The code violates the property for fitted=True, the default (full statement: C35_statement). Proved: it holds "
        "for fitted=False; for fitted=True the indicator is replaced by zero, so data terms vanish and the right-hand "
        "side does not depend on the data."),
    ("C36", "proved", ["C36_zero_division", "C36_key_error", "C36_failure_frame", "C36_derived", "C36_unpacking"], ""),
    ("C37", "proved", ["C37_prolongation", "C37_restriction", "C37_every_entry", "C37_every_entry_restriction",
        "C37_round_trip", "C37_prolongation_shape_error", "C37_restriction_shape_error"], ""),
    ("C38", "proved", ["C38_value", "C38_depends_on_input_only", "C38_linear", "C38_exact_on_coarse", "C38_ready",
        "C38_needs_rhs"], ""),
    ("C39", "partial", ["C39_intended_partial", "C39_always_fails", "Example.C39_violated"],
        "The code violates the property (full statement: C39_statement): every call raises AttributeError. Proved: "
        "that, and the value the body would compute with the coarse correction looked up on the object itself."),
    ("C40", "proved", ["C40_top", "C40_matching", "C40_derivative", "C40_continuous", "C40_recon", "C40_recon_derivative"], ""),
    ("C41", "proved", ["C41_samples", "C41_covered", "C41_neighbours", "C41_at_most_two", "C41_same_value",
        "C41_maxima_defined"], "Exact arithmetic, as stated in the property."),
    ("C42", "proved", ["C42_report", "C42_nonneg", "C42_final_le_max", "C42_exact", "C42_any_history", "C42_returns"], ""),
    ("C43", "proved", ["C43_tables","C43_plot","C43_plot_error", "C43_any_history", "C43_error_any_history", "C43_returns"], ""),
    ("C44", "proved", ["Gmres.C44_success", "Gmres.C44_failure", "Gmres.C44_errors", "Gmres.C44_iff", "Gmres.C44_tolerance"], ""),
    ("C45", "proved", ["Gmres.C45_arguments", "Gmres.C45_effective", "Gmres.C45_monitor", "Gmres.C45_database", "Gmres.C45_persists"], ""),
    ("C46", "proved", ["C46_backend", "C46_completes", "C46_diverged"], ""),
    ("C47", "partial", ["C47_zero_partial", "Example.C47_violated"],
        "The code violates the property (full statement: C47_statement): the arguments of solve are swapped. Proved: "
        "the branch returns the zero vector and overwrites the right-hand side."),
    ("C48", "proved", ["C48_conversion", "C48_entries", "C48_square", "C48_solver"], ""),
    ("C49", "proved", ["C49_hierarchy", "C49_all_marked", "C49_uniform", "C49_convex"], "for a library that accepts the argument passed (see C57)"),
    ("C50", "partial", ["C50_violated", "C50_never", "C50_refuses_exactly", "C50_rows_partial", "C50_cells", "C50_mesh_partial", "C50_tables", "C50_square_never"], "violated: the test for sequential numbers is inverted; the reordering itself is proved right"),
    ("C51", "proved", ["C51_points"], ""),
    ("C52", "proved", ["C52_marker", "C52_surfaces", "C52_only", "C52_boundary", "C52_counted"], ""),
    ("C53", "proved", ["C53_convex1", "C53_noGcc1", "C53_convex2", "C53_gcc3", "C53_noGcc3", "C53_ufl", "C53_agree"], ""),
    ("C54", "proved", ["Files.C54_synchronised", "Files.C54_one_call", "Files.C54_no_deadlock", "Files.C54_not_synchronised"], ""),
    ("C55", "proved", ["C55_cover", "C55_inside", "C55_disjoint", "C55_target"], ""),
    ("C56", "proved", ["C56_order", "C56_argument", "C56_releases", "C56_prereleases", "C56_strict_order", "C56_local"], ""),
    ("C57", "partial", ["C57_violated", "C57_partial"], "violated: three builders raise TypeError with DOLFINx 0.7"),
    ("C58", "partial", ["Files.C58_tags_overwritten", "Files.C58_one_process", "Files.C58_last_call"], "violated for the facet tags with two or more processes"),
    ("C59", "partial", ["C59_violated", "C59_overlap", "C59_partial"], "violated: the upper block starts 0.25 too low"),
    ("C60", "partial", ["C60_violated", "C60_unit_partial"], "violated in get_mesh_inclusion; proved on the unit square"),
    ("C61", "proved", ["C61_slab_forward_jumps"], "as C15"),
    ("C62", "proved", ["C62_one_sided_unique_solution", "C62_exact_slab_solvers"], "as C15"),
    ("C63", "proved", ["C63_rhs_form", "C63_rhs_vector"], ""),
    ("C64", "proved", ["C64_consistency", "C64_quadrature_error"], "exact solutions are curves in the function space (Spec.WaveSolution)"),
    ("C65", "proved", ["C65_error_identity"], "as C64"),
    ("C66", "partial", ["Example.C66_violated", "C66_construct_partial", "C66_placeholder_only", "C66_same_system", "C66_solution_energy"],
        "violated as a consequence of C35 (full statement: C66_statement); the effect on the scripts is proved"),
    ("C67", "proved", ["Script.C67_derivative", "Script.C67_wave_equation", "Script.C67_boundary", "Script.C67_nontrivial", "C67_solution_1d"], ""),
    ("C68", "proved", ["C68_observable_unique_solution", "C68_full_data_observe", "C68_initial_values_observe"], "assumptions as C15, with observability in place of well_posed=True"),
    ("C69", "partial", ["Example.C69_violated", "C69_window_partial"], "violated: the start time is not used (full statement: C69_statement)"),
    ("C70", "proved", ["C70_stability"], "the four-point rule bounds squares of discrete functions by 1.01 times the integral (radau_slab)"),
    ("C71", "proved", ["C71_error_estimate"], "boundary flux bounded through an arbitrary G with nit(v,y)^2 <= G(v) pen(y,y)"),
    ("C72", "proved", ["C72_files", "C72_same_value", "C72_effect", "C72_any_history"], "interpolation is evaluation at the nodes of a nodal basis"),
 ("C73","partial",["Par.C73_raises","Par.C73_loaded_partial","Par.C73_violated"],"violated: the owned part is assigned to an array with owned and ghost entries; holds on ranks without ghosts"),
 ("C74","partial",["Par.C74_raises","Par.C74_returns_partial","Par.C74_returns_iff","Par.C74_sequential","Example.C74_violated"],"violated on ranks with ghost dofs; on one process it always returns and refines the model in which vectors are total functions"),
 ("C75","partial",["Par.C75_missing_cells","Par.C75_right_hand_side_partial","Example.C75_violated"],"violated: no ghostUpdate after assemble_vector; the missing part is stated exactly, it vanishes on one rank"),
 ("C76","partial",["Fl.C76_violated","Fl.C76_power_of_two_partial","Fl.C76_missed_near_boundary_partial","Fl.C76_rounding"],"violated for T=1, N=6 (full statement: Fl.C76_statement); holds for powers of two"),
 ("C77","proved",["C77_any_history","C77_last_mesh","C77_uniquely_solvable"],"the form determines the matrix: CoarseMesh.Discretises.unique"),
 ("C78","proved",["C78_matrices_available","C78_preconditioner_solves","C78_solvers_exist","C78_one_sided_unique_solution"],"solvability with well_posed=True is C62"),
 ("C79","proved",["C79_residual_bounds_error","C79_gmres_error","C79_error_estimate","C79_maps_exist"],"well_posed=False without forward jumps; PETSc: TestsConvergence, reasons 2 and 3"),
 ("C80","proved",["C80_only_output","C80_history","C80_input_kept"],"the caller's vectors are distinct from the vector returned by get_spacetime_rhs"),
 ("C81","partial",["C81_convex_partial","C81_nonconvex_exchanged","C81_violated"],"violated for the non-convex mesh (full statement: C81_statement)"),
 ("C82","proved",["C82_interval","C82_box","C82_box_two","C82_flag","C82_all_around"],"about the meshes and indicator functions; the constructor itself interpolates another function, see C35"),
 ("C83","partial",["Par.C83_raises","Par.C83_returns_partial","Par.C83_sequential","Example.C83_violated"],"violated on ranks with ghost dofs (full statement: Par.C83_statement)"),
 ("C84","proved",["C84_recovers_iff","C84_recovered_jumps_tiny","C84_finite_termination","C84_gmres_returns"],"GMRES in exact arithmetic is the contract ExactGmres; data: Cfg.ObservableAll, met by Determined data (determined_observes)"),
 ("C85","proved",["C85_prolongation","C85_restriction","C85_round_trip","C85_q_op"],"one scalar space for all components (OneSpace), as in the scripts; interpolation is an arbitrary linear map given to the mesh"),
 ("C86","partial",["C86_failed_partial","C86_retry","Example.C86_violated"],"C86_statement is false: after a failing assembly the transfers are new and the matrix old; sizes of the coarse work vectors are not modelled"),
 ("C87","partial",["C87_retry_partial","C87_bad_steps","Example.C87_violated"],"C87_statement is false for three allocations"),
 ("C88","partial",["C88_no_trace_partial","C88_requests_return","C88_slab_interrupted","C88_slab_undisturbed","C88_slab_recovers_partial","Example.C88_violated"],"C88_statement is false for the slab matrix and form; setup_spacetime_finite_elements is modelled as one step, no claim about it"),
 ("C89","proved",["C89_time_rate","C89_semidiscrete_rate"],"Uses C71; interpolation error at the equidistant nodes by repeated Rolle. The example is the standing wave for every number of slabs."),
 ("C90","proved",["C90_reported_errors"],"Data together with boundary values and jumps of the gradient determine the functions (Cfg.Determined); the negative powers of dt come from the weights of the stabilisation. The example is the standing wave for every number of slabs."),
 ("C91","partial",["C91_system_partial","C91_recovers","C91_missing_row","C91_fails","Example.C91_violated"],"C91_statement is false: the slab matrices lack the adjoint interface terms; C91_system_partial is the exact system"),
 ("C92","proved",["C92_determined","C92_unique_solution","C92_solve_1d"],"Space forms written out for interval meshes (Model/Interval); linear elements only: for higher orders the jumps of the gradient do not control the functions"),
 ("C93","partial",["C93_solution_partial","C93_run","C93_sample","Example.C93_violated"],"C93_statement is false: the reported errors are those of the zero function. Integrals of the sample solution are exact in the model."),
 ("C94","proved",["C94_solution","C94_consistency"],"Waves are analytic in space (the functions of Model/Interval). Uses C64; Green's formula on interval meshes proved with the fluxes of Model/Interval. Example: the sample solution of solve_1d.py."),
 ("C95","proved",["C95_error","C95_half"],"Uses C71 with explicit constants; linear elements; constants not sharp. Example.solveN: the system is uniquely solvable and the report exists for every N, n with n*N <= 1e16; Example.solve20000 is a concrete instance."),
 ("C96","proved",["C96_history","C96_content"],"Op.Involves lists the vectors passed to a call; return values of the requests are compared in SameBut"),
 ("C97","partial",["C97_shared","C97_unnoticed_partial","C97_rebuild_partial","Example.C97_violated"],"C97_statement is false: the cached vector itself is handed out"),
 ("C98","proved",["C98_complete","C98_reads","C98_missing","C98_missing_reported"],"Model/StabDict makes the look-ups where the code makes them; Op.reads lists the entries a call needs"),
 ("C99","partial",["C99_settled_partial","C99_removed","C99_refresh_partial","C99_provenance_partial","C99_unchanged_partial","C99_mixed","C99_stale","Example.C99_violated"],"C99_statement is false: cached operators keep the old values"),
 ("C100","proved",["C100_numbering","C100_same_function"],"the scalar spaces and their basis functions are the same for both objects; entries beyond the last dof are kept equal"),
 ("C101","partial",["C101_independent_partial","C101_unfitted_partial","C101_settled_partial","C101_harmless","C101_repair","C101_disturbed","Example.C101_violated"],"C101_statement is false: with fitted=True the constructor of another object replaces the indicator in the shared domain"),
 ("C102","proved",["C102_determined","C102_unique_solution","C102_solve_3d"],"Space forms written out for grids of boxes (Model/Grid); elements of order 1"),
 ("C103","partial",["C103_solution_partial","C103_run","C103_sample","Example.C103_violated"],"C103_statement is false: the reported errors are those of the zero vector. Integrals of the sample solution are exact in the model."),
 ("C104","proved",["C104_solution","C104_consistency","C104_solve_3d"],"Waves are analytic in space (the functions of Model/Grid). Uses C64; Green's formula on grids of boxes proved with the facet integrals of Model/Grid. solve_3d.py itself leaves out the initial values (C35)."),
 ("C105","proved",["C105_standing_wave","C105_error","C105_half"],"Uses C71 with explicit constants, multilinear elements; constants not sharp. Example.solve3N: the system is uniquely solvable and the report exists for all N, k with k*N <= 1e16; Example.solve1000 is a concrete instance."),
 ("C106","proved",["C106_start","C106_energy_definite","C106_observable","C106_unique_solution","C106_interval","C106_grid"],"The constant K exists by compactness; C107 gives one for intervals. Other meshes: C106_unique_solution with elliptic_of_green."),
 ("C107","proved",["C107_control","C107_observable","C107_elliptic","C107_unique_solution","C107_solve_1d"],"Explicit constants, not sharp. Lagrange elements of order k as the polynomials of Lemmas/Pk; ORDER is a module constant of the script (solve_1d.py:65-69)."),
 ("C108","partial",["C108_solution_partial","Example.C108_violated"],"C108_statement k is false for k = 1, 2, 3: the reported errors are those of the zero function."),
 ("C109","proved",["C109_solution","C109_consistency","C109_solve_2d","C109_sample"],"Waves analytic in space. The gmsh mesh of solve_2d.py is not modelled: any triangulation whose boundary edges lie on the boundary of the unit square (Tri.BdSquare)."),
 ("C110","proved",["C110_every_mesh","C110_elliptic","C110_unique_solution","C110_solve_2d","C110_mesh_sizes","C110_triangles"],"Explicit constants, not sharp, for elements up to order 3 in space; for other orders existence of the constant."),
 ("C111","partial",["C111_solution_partial","C111_run","Example.C111_violated"],"C111_statement is false: the reported errors are those of the zero vector. The triangulation is arbitrary, its tiling of the unit square and bounds for edges and areas are hypotheses; the witness is the square cut along a diagonal."),
 ("C112","proved",["C112_error","C112_unique","C112_reconstruct"],"Exact arithmetic; the tiling of the square and the bounds for edges and areas are hypotheses on the triangulation, met for instance by k x k squares cut along their diagonals (Tri.squares)."),
 ("C113","proved",["Tri.C113_refine","Tri.C113_nested","C113_hierarchy","C113_unique","C113_reports"],"How DOLFINx divides a triangle is taken from its documentation (Tri.refine); gmsh's initial mesh is any triangulation."),
 ("C114","proved",["C114_fit","C114_solve_1d","C114_solve_2d","C114_solve_3d","Example.C114_script"],"Exact arithmetic; the misfit (Spec.misfit) is that of the finite element function, not of a reported quantity. Example.fit2: 100 slabs and 2*200^2 triangles with data on any union of triangles; Example.fit3: 100 slabs and 100^3 cells."),
 ("C115","proved",["C115_error","C115_unique","C115_half"],"Continues C95, with smaller constants. The interpolant is piecewise linear for each order, so the bound does not improve with the order."),
 ("C116","partial",["C116_solution_partial","Example.C116_violated"],"C116_statement k is false for k = 1, 2, 3: the misfit is almost that of the zero function."),
 ("C117","proved",["C117_noise","C117_everywhere","C117_solve_1d","C117_solve_2d","C117_solve_3d"],"C70 bounds the stability energy of the difference; here the reported errors."),
 ("C118","proved",["C118_elliptic","C118_bound","C118_solve_1d","C118_solve_2d","C118_solve_3d"],"Exact arithmetic; without forward jumps (jumps_in_fw_problem=False, as in the scripts). Cfg.PrecondSolvable names the conclusion for the three matrices."),
 ("C119","proved",["C119_few_steps","C119_observable","C119_solve_1d","C119_solve_2d","C119_solve_3d"],"Exact arithmetic. The scripts themselves pass no restart (1000 by default) with maxsteps=100000: for them only the statement on the span applies if r >= 1000."),
 ("C120","partial",["C120_solve_2d_partial","C120_solve_3d_partial","Example.C120_violated_2d","Example.C120_violated_3d"],"C120_statement_2d and C120_statement_3d are false: the misfit is almost that of the zero function. The witness in two dimensions is the square divided into 200 triangles with the data domain of the script; in three dimensions the mesh and data domain of the script."),
 ("C121","proved",["C121_form_then_matrix","C121_matrix_then_form","C121_slab_forms","C121_rhs_form","C121_form_of_rhs"],"Exact arithmetic; the assembly of DOLFINx is modelled as evaluation of the form on the basis functions. The slab pairs may even come from two objects of the same configuration."),
]

src = "\n".join(p.read_text() for p in sorted((ROOT / "lean" / "Verif").rglob("*.lean")))
names = set(re.findall(r"^(?:@\[[^\]]*\] *)?theorem ([\w'.]+)", src, re.M))
ids = {json.loads(line)["id"] for line in (ROOT / "properties.jsonl").read_text().splitlines()}
for pid, status, thms, _ in CLAIMS:
    assert pid in ids, pid
    assert status in ("proved", "partial", "not_applicable")
    for t in thms:
        assert t.split(".")[-1] in names, (pid, t)
out = {
    "claims": [
        {"property": p, "status": s, "theorems": ["Dxss." + t for t in ts], "note": n}
        for p, s, ts, n in CLAIMS
    ]
}
(ROOT / "MANIFEST.json").write_text(json.dumps(out, indent=1) + "\n")
print(len(CLAIMS), "claims; missing:", sorted(ids - {c[0] for c in CLAIMS}))
