import json
P=[]
def add(title, statement, quantifier, why, anchors):
    P.append(dict(id="C%02d"%(len(P)+1), title=title, statement=statement, quantifier=quantifier, why_tests_cant=why, anchors=anchors))
PT="src/dxss/precomp_time_int.py"; ST="src/dxss/space_time.py"; GM="src/dxss/gmres.py"; ME="src/dxss/meshes.py"
# --- time discretisation
add("Time basis is nodal and sums to one",
 "For every supported temporal order q in 0..3 the public basis functions basis_in_time[q] form a Lagrange basis: the i-th function is 1 at its own equispaced node i/q and 0 at the other nodes, and at every time t the values sum to 1 while the tabulated derivatives sum to 0.",
 "all orders q in 0..3, all pairs of nodes, all real t", "A test samples t; the identity must hold at every real t because the quadrature and error sampling evaluate the basis at arbitrary points.",
 [PT+":basis_in_time"])
add("Tabulated time derivatives are the derivatives of the tabulated basis",
 "For every supported order q and every index j, the second entry of basis_in_time[q] at j is the derivative of the first entry at j, at every real t.",
 "all q in 0..3, j <= q, all real t", "A finite-difference test only samples points and only up to a tolerance.", [PT+":basis_in_time"])
add("Time element matrices are the integrals of the public basis",
 "get_elmat_time(q, qstar) returns six matrices whose (i,j) entries are exactly the integrals over the reference interval [0,1] of products of the public basis functions and their derivatives (trial index j is the column, test index i is the row); orders outside 0..3 raise KeyError.",
 "all q, qstar (supported and unsupported), all entries", "The matrices and the basis are two independent tables; a test compares a few entries numerically, the claim ties every entry to a true integral of the function actually used by the rest of the code.",
 [PT+":get_elmat_time", PT+":basis_in_time"])
add("Time mass matrices are symmetric positive definite",
 "For every supported order, M_time_q_q and M_time_qstar_qstar are symmetric and c^T M c > 0 for every non-zero coefficient vector c; DDM_time_q_q is symmetric, c^T DDM c >= 0, with equality exactly for constant coefficient vectors.",
 "all q in 0..3 and all real coefficient vectors", "Definiteness quantifies over all real vectors.", [PT+":get_elmat_time"])
add("Discrete integration by parts in time",
 "For every supported order, DM_time_q_q plus its transpose has entries phi_i(1)phi_j(1) - phi_i(0)phi_j(0): the discrete time derivative is skew up to slab end-point terms.",
 "all q in 0..3, all entries", "The identity is what makes slab-to-slab coupling consistent; tests check rounded entries only.", [PT+":get_elmat_time"])
add("The 1e-10 guard never discards a real boundary contribution",
 "While assembling, the boundary-flux (Nitsche) contribution of a pair of time indices is skipped when the time-mass entry has absolute value at most 1e-10. For every supported pair of orders the skipped contributions are exactly zero, so the guarded form equals the unguarded one for all discrete functions.",
 "all q, qstar in 0..3, all discrete functions", "Whether a skipped term matters depends on all functions it is applied to.", [ST+":SpaceTime.setup_spacetime_matrix", ST+":SpaceTime.setup_slab_matrix"])
add("Quadrature rule contract",
 "QuadRule(name, npoints) accepts exactly the tabulated combinations (Gauss-Radau 3,4,5; Gauss 1,2,3; Newton-Cotes 2,3; Midpoint-Rule with any npoints) and fails with KeyError/ZeroDivisionError on other point counts of the tabulated families; on success, for every interval [a,b] current_pts(a,b) and t_weights(b-a) have the same length, all points lie in [a,b], all weights are positive when a<b, and the weights sum to b-a. An unrecognised name is accepted silently and current_pts/t_weights return None.",
 "all names, all integer point counts, all real a < b", "Quantifies over all intervals and all argument combinations.", [PT+":QuadRule"])
add("Polynomial exactness of the exact quadrature rules",
 "Gauss with n points integrates every polynomial of degree <= 2n-1 exactly on every interval [a,b]; Gauss-Radau 3 degree <= 4; Newton-Cotes 2 and Midpoint-Rule degree <= 1; Newton-Cotes 3 degree <= 3.",
 "all real polynomials of the stated degree, all real a, b", "Quantifies over all polynomials and intervals.", [PT+":QuadRule.current_pts", PT+":QuadRule.t_weights"])
add("Accuracy of the rounded Gauss-Radau tables used by the solver",
 "The 4-point rule used for the right-hand side and the 5-point rule used for error measurement are tabulated to six digits. For every polynomial of degree <= 6 (resp. <= 8) on the reference interval [0,1] the quadrature error is at most 1e-6 times the sum of the absolute values of its coefficients.",
 "all real polynomials of degree <= 6 / <= 8", "The error must be bounded for all polynomials, not the ones sampled.", [PT+":QuadRule", ST+":SpaceTime.__init__"])
add("Lifting polynomial theta_ref",
 "theta_ref is 1 at -1 and vanishes at 0 and 1; d_theta_ref is its derivative at every real argument.",
 "all real arguments", "Derivative correctness at every point.", [PT+":theta_ref", PT+":d_theta_ref"])
# --- forms
add("Assembly never indexes outside the space-time element",
 "For every number of slabs N >= 1, every supported pair of temporal orders and every flag setting, each trial/test component index used while building the space-time form, the slab form, the coupling form, the slab-interface mass form and the right-hand side lies inside the number of components allocated by setup_spacetime_finite_elements, for both the primal (q) and dual (qstar) components.",
 "all N, q, qstar, flags, all generated terms", "Depends on loop counters over all N and orders.", [ST+":SpaceTime.setup_spacetime_matrix", ST+":SpaceTime.setup_rhs", ST+":SpaceTime.setup_spacetime_finite_elements"])
add("The assembled form is the space-time variational form",
 "For every N, orders, step length, flags and discrete functions, the form assembled by get_spacetime_matrix(precond=False) equals, up to the documented 1e-20 compiler placeholder, the sum over slabs of true time integrals of: the wave operator tested with the dual test functions, its transpose, the data term, minus the dual stabilisation, plus the primal stabilisation (squares of u2 - du1/dt and h(du2/dt - Laplacian u1), gradient-jump and boundary penalty) plus the inter-slab jump terms and, if enabled, the initial-data and forward-jump terms.",
 "all N, q, qstar, T, stabilisation weights, flags, discrete trial/test functions", "The form is an equation between functionals on an arbitrary discrete space.", [ST+":SpaceTime.setup_spacetime_matrix"])
add("Symmetry of the space-time system",
 "With precond=False the assembled form is symmetric under exchanging trial and test functions for all flags, up to the 1e-20 placeholder term (which is itself not symmetric); with precond=True the form is in general not symmetric.",
 "all N, orders, weights, flags, trial/test functions; one witness for the negative part", "Symmetry quantifies over all functions.", [ST+":SpaceTime.setup_spacetime_matrix"])
add("Stability identity",
 "With precond=False, testing the system with (u, -z) yields exactly: data misfit + primal stabilisation + jump energy + dual stabilisation of (u,z), a sum of non-negative contributions for non-negative weights, plus the 1e-20 placeholder evaluated at (u,-z).",
 "all N, orders, non-negative weights, flags, discrete (u,z)", "Quantifies over all discrete functions.", [ST+":SpaceTime.setup_spacetime_matrix"])
add("Well-posed configuration is uniquely solvable",
 "With well_posed=True and positive weights that dominate the 1e-20 placeholder, the space-time matrix has trivial kernel for every N, every supported pair of orders and every spatial discretisation: the direct solve has at most one solution.",
 "all N, q, qstar, meshes/discretisations, weights", "Non-singularity for every mesh and N.", [ST+":SpaceTime.setup_spacetime_matrix", ST+":SpaceTime.get_spacetime_matrix"])
add("Slab matrix is non-singular",
 "Without forward jumps, the matrix returned by get_slab_matrix() has trivial kernel for every supported pair of orders and spatial discretisation with positive weights dominating the 1e-20 placeholder, so an LU slab solver is well defined.",
 "all q, qstar, discretisations, weights, step lengths", "Non-singularity for every mesh.", [ST+":SpaceTime.setup_slab_matrix", ST+":SpaceTime.get_slab_matrix"])
add("Matrix-free product equals the assembled matrix product",
 "Without forward jumps and with well_posed=False, apply_spacetime_matrix(x, y) (and SpaceTimePETScMatrixWrapper.mult) sets y to A x where A is the matrix of get_spacetime_matrix(precond=False), for every x and every dof numbering, up to an explicitly given multiple of the 1e-20 placeholder terms.",
 "all vectors x, all N, orders, dof numberings, discretisations", "Two different algorithms (loop over slabs vs one global assembly) must agree on all inputs and sizes.", [ST+":SpaceTime.apply_spacetime_matrix", ST+":SpaceTimePETScMatrixWrapper.mult", ST+":SpaceTime.get_spacetime_matrix"])
add("Matrix-free product agrees with the assembled matrix in every configuration",
 "The same agreement for well_posed=True or jumps_in_fw_problem=True.",
 "all configurations", "Needs every flag combination and every vector. (The code violates it: the initial-data and forward-jump terms are missing from the matrix-free product; the exact discrepancy is proved and a witness given.)", [ST+":SpaceTime.apply_spacetime_matrix"])
add("Matrix-free product is a pure linear operator of its input",
 "The result of the matrix-free product depends only on the input vector (not on the previous content of the output vector or on scratch state left by any earlier call), is linear in it, leaves the input and every other vector unchanged when input and output are different vectors, and yields zero when the same vector is passed as input and output.",
 "all vectors, all prior scratch states, aliased and non-aliased arguments", "History independence ranges over all earlier calls.", [ST+":SpaceTime.apply_spacetime_matrix"])
add("Time marching solves the lower block-triangular system",
 "If the two slab solvers solve their slab matrices, then the vector computed by pre_time_marching_improved(b, x) satisfies P x = b where P is the matrix of get_spacetime_matrix(precond=True), for every b (no forward jumps; both well_posed settings), up to explicitly given 1e-20 placeholder terms.",
 "all b, N, orders, dof numberings, discretisations, exact slab solvers", "A sequential sweep must invert a global matrix for every N and b.", [ST+":SpaceTime.pre_time_marching_improved", ST+":SpaceTimePETScPreconditionerWrapper.apply"])
add("Time marching recovers any vector",
 "If the slab solvers are exact left inverses of their slab matrices, applying the preconditioner to P x (placeholder terms included) returns x for every x.",
 "all x, N, orders, numberings", "Quantifies over all vectors and N.", [ST+":SpaceTime.pre_time_marching_improved"])
add("The two time-marching variants agree",
 "Without forward jumps, pre_time_marching and pre_time_marching_improved give, slab by slab, the same slab right-hand sides up to the fixed 1e-20 placeholder load vector, hence the same result when that vector is zero.",
 "all b, N, orders, solvers", "Two algorithms must agree on all inputs.", [ST+":SpaceTime.pre_time_marching", ST+":SpaceTime.pre_time_marching_improved"])
add("Preconditioner is causal",
 "Changing the right-hand side only on slabs >= n does not change the preconditioner's output on slabs < n.",
 "all pairs of right-hand sides, all n, N", "Quantifies over pairs of inputs.", [ST+":SpaceTime.pre_time_marching_improved"])
add("Preconditioner application is history independent, linear and safe in place",
 "The result depends only on b and the slab solvers, not on earlier calls or on the previous content of x; it is linear in b when the slab solvers are linear; b is unchanged when b and x differ; and passing the same vector as b and x gives the same result as distinct vectors.",
 "all vectors, earlier scratch states, aliasing", "Histories and aliasing.", [ST+":SpaceTime.pre_time_marching_improved"])
add("Forward-jump configuration is rejected by the preconditioner",
 "With jumps_in_fw_problem=True every call of pre_time_marching_improved (and the PETSc preconditioner wrapper) raises ValueError and leaves all vectors and solver state unchanged, whatever was called before.",
 "all object states and vectors", "Every prior history.", [ST+":SpaceTime.pre_time_marching_improved", ST+":SpaceTimePETScPreconditionerWrapper.apply"])
add("A slab-solver failure does not poison later applications",
 "If a slab solver raises at any slab of any call, the exception propagates, the output blocks of later slabs are untouched, and a subsequent call with working solvers returns the same result as on a fresh object.",
 "all crash points (slab index), all b", "Every crash point.", [ST+":SpaceTime.pre_time_marching_improved"])
# --- lifecycle
add("Documented call sequence always works",
 "For well_posed=False and no forward jumps: on a fresh object, setup_spacetime_finite_elements, prepare_precondition_gmres, set_solver_slab and set_solver_first_slab (solvers in any order, with any further prepare calls or getters after the first prepare) make the matrix-free product and the preconditioner run without attribute errors for every N >= 1.",
 "all N and all such call histories", "Ranges over call histories.", [ST+":SpaceTime.prepare_precondition_gmres", ST+":SpaceTime.get_slab_matrix"])
add("Getting the slab matrix before preparing is harmless",
 "Calling get_slab_matrix()/get_slab_bfi() before prepare_precondition_gmres() does not affect the later preconditioner application.",
 "all call orders", "Call-order dependence. (The code violates it: the slab right-hand-side vector is then never created and the preconditioner raises AttributeError for ever after; proved with a witness and a general theorem.)", [ST+":SpaceTime.prepare_precondition_gmres", ST+":SpaceTime.get_slab_matrix"])
add("Preparing in the well-posed configuration enables the matrix-free product",
 "After prepare_precondition_gmres() with well_posed=True the matrix-free product is available.",
 "all histories with well_posed=True", "Histories. (Violated: the jump-free slab matrix and its work vectors are never built; proved that the product raises AttributeError, and which call repairs it.)", [ST+":SpaceTime.prepare_precondition_gmres", ST+":SpaceTime.apply_spacetime_matrix"])
add("Cached operators are stable",
 "After the first successful call, every getter (space-time matrix and form, right-hand side and linear form, slab matrix and form, first-slab matrix) returns the same value for the rest of the object's life under any sequence of further getter, prepare, solver-setting, product, preconditioner or error-measurement calls; repeated preparation changes no cached operator.",
 "all operation sequences", "Ranges over all histories.", [ST+":SpaceTime.get_spacetime_matrix", ST+":SpaceTime.get_spacetime_rhs", ST+":SpaceTime.get_slab_matrix", ST+":SpaceTime.prepare_precondition_gmres"])
add("Cached operators are correct after any history",
 "Whatever sequence of public calls was made (including ones that raised), any slab matrix, jump-free slab matrix, first-slab matrix, coupling matrix or interface mass matrix the object holds is the one determined by its configuration; hence whenever the matrix-free product returns normally, its result is the configuration's operator applied to the input.",
 "all operation sequences", "Ranges over all histories.", [ST+":SpaceTime"])
add("The precond argument of the matrix getter is honoured",
 "get_spacetime_matrix(precond) returns the matrix for the requested value of precond.",
 "all call sequences", "History dependence. (Violated: the cache ignores precond; proved that the first call decides for ever, and that the two matrices differ.)", [ST+":SpaceTime.get_spacetime_matrix", ST+":SpaceTime.get_spacetime_bfi"])
add("Right-hand side does not depend on call history",
 "The right-hand side returned by get_spacetime_rhs() depends only on the configuration and on the initial data set by the user, not on when it is first requested.",
 "all operation sequences before the first request", "Histories. (Holds for well_posed=False; violated for well_posed=True because error measurement overwrites the initial data; both proved.)", [ST+":SpaceTime.setup_rhs", ST+":SpaceTime.measured_errors"])
add("Preparation can be retried after a failure",
 "If any external step inside prepare_precondition_gmres fails, calling it again (with no further failure) leaves the object as if the first call had succeeded.",
 "all crash points inside preparation", "Crash points. (Violated at exactly three points - between storing a matrix and creating its work vectors; proved for all other points, with witnesses for these.)", [ST+":SpaceTime.prepare_precondition_gmres", ST+":SpaceTime.setup_coupling_matrix_between_slices", ST+":SpaceTime.setup_scaled_mass_matrix_between_slices"])
add("The user's data domain is used",
 "The data term and the right-hand side use the indicator function supplied in DataDomain.",
 "all indicator functions", "All indicator functions. (Holds for fitted=False; violated for the default fitted=True, where a freshly created zero function replaces the user's callable, so the data term and the whole data load vanish; both proved.)", [ST+":SpaceTime.__init__", ST+":DataDomain"])
add("Constructor argument validation and derived parameters",
 "Constructing a solver raises ZeroDivisionError exactly when N = 0, otherwise KeyError exactly when q or qstar is outside 0..3, and otherwise succeeds with step length T/N, penalty 5 k^2 and form-compiler offset 1e-15 exactly when qstar = 0; positional unpacking of ProblemParameters assigns (jumps_in_fw_problem, well_posed) in this order.",
 "all N, q, qstar, T, k and flags", "All argument values.", [ST+":SpaceTime.__init__", ST+":ProblemParameters"])
# --- two level
add("Prolongation and restriction act block by block",
 "prolongation and restriction apply the spatial interpolation operator to each (component, time index) block independently and write every entry of the target vector; if interpolating coarse to fine and back is the identity, restriction after prolongation is the identity on coarse vectors. They fail with a shape error when the primal and dual spatial orders give different numbers of dofs.",
 "all vectors, N, orders, numberings", "All vectors and sizes.", [ST+":SpaceTime.prolongation", ST+":SpaceTime.restriction"])
add("Coarse-grid correction operator",
 "q_op(b, x) sets x to prolongation(coarse solve(restriction b)) for all b independent of scratch state, is linear for linear coarse solvers, and if nested interpolation holds and the coarse solver inverts the coarse matrix, applying it to prolonged coarse images of the coarse matrix recovers the prolonged vector.",
 "all vectors and histories", "All inputs.", [ST+":SpaceTime.q_op"])
add("Two-level preconditioner is usable",
 "pre_twolvl(b, x) computes coarse correction plus time-marching of the residual.",
 "all states and inputs", "All states. (Violated: every call raises AttributeError because the coarse correction is looked up on the time-order object; x is left unchanged. Proved, together with the value the intended call would give.)", [ST+":SpaceTime.pre_twolvl"])
# --- errors
add("Reconstructed solution is continuous and its reported derivative is exact",
 "For every discrete vector, the post-processed time function used for error measurement is continuous across all slab boundaries, equals the top value of each slab at its end, and the quantity used as its time derivative is its derivative at every time inside each slab.",
 "all vectors, N, orders, times", "All real times and vectors.", [ST+":SpaceTime.measured_errors"])
add("Every error sample point is measured",
 "In exact arithmetic each of the 105 sample times in [0,T] falls in at least one slab and in at most two, so the lists of errors are non-empty and the reported maxima are defined for every N >= 1; a sample on an inner slab boundary gives the same displacement error from both sides.",
 "all N >= 1, T > 0", "All N and T.", [ST+":SpaceTime.measured_errors"])
add("Error report is sound",
 "All reported errors are non-negative; the L-infinity-L2 displacement error is at least the final-time error L2-u1-T; and if the discrete vector interpolates an exact solution that is polynomial of degree <= q in time and continuous, every reported error is zero.",
 "all vectors, exact solutions, N, orders", "All solutions and sizes.", [ST+":SpaceTime.measured_errors"])
add("Plot sampling grid",
 "The sampling tables produced for plotting have n_time_subdiv*N rows; row n*n_time_subdiv+m holds the value of the discrete solution at time (n + m/n_time_subdiv) T/N, the time axis has the same number of entries in strictly increasing order, and every table entry is written exactly once. plot's tables hold the values of the discrete solution and of its time derivative (absolute values with abs_val), plot_error's in addition the absolute differences to the exact solution and to its time derivative at the same time and point.",
 "all N, n_time_subdiv >= 1, n_space >= 1", "All sizes.", [ST+":SpaceTime.plot", ST+":SpaceTime.plot_error"])
# --- gmres
add("GMRes driver reports failure",
 "get_gmres_solution returns a (solution, residual) pair only when PETSc reports a non-negative converged reason and raises PETSc.Error otherwise; with the solver's documented contract the returned residual is b - A x.",
 "all outcomes of the linear solver", "All solver outcomes.", [GM+":get_gmres_solution"])
add("GMRes parameters are passed through",
 "Explicit tol, reltol, restart and maxsteps values (including 0) reach PETSc unchanged, omitted ones become 1e-12, 1e-7, 1000 and 100, unless overridden by the PETSc options database; the monitor is installed exactly when printrates is true; the three options the function writes remain in the global database for later solvers.",
 "all argument combinations and option databases", "All argument combinations and histories of the global options database.", [GM+":get_gmres_solution"])
add("Solver scripts choose a working backend",
 "In the 1D/2D/3D scripts the backend is pypardiso exactly when it is importable and PETSc LU otherwise, and the remaining (direct space-time) branch is never taken.",
 "all import outcomes", "Environment-dependent.", ["src/dxss/solve_1d.py:solve_problem","src/dxss/solve_2d.py:solve_problem","src/dxss/solve_3d.py:solve_problem"])
add("Direct space-time branch solves the system",
 "If the direct branch is selected it returns the solution of A u = b.",
 "all right-hand sides", "All inputs. (Violated: the arguments of solve are swapped; proved that it returns the zero vector and overwrites the right-hand side with zero.)", ["src/dxss/solve_1d.py:solve_problem","src/dxss/solve_2d.py:solve_problem","src/dxss/solve_3d.py:solve_problem"])
add("Sparse conversion preserves the matrix",
 "get_sparse_matrix returns a matrix with the same number of rows and the same entries; its inferred column count is one more than the largest stored column index, so it is square exactly when the last column has a stored entry. Otherwise the scripts with pypardiso stop with a ValueError when the matrix is factorised.",
 "all CSR matrices", "All matrices.", [ST+":get_sparse_matrix"])
# --- meshes
add("Mesh hierarchy structure",
 "get_mesh_hierarchy, get_mesh_hierarchy_nonconvex, get_mesh_hierarchy_fitted_disc, get_mesh_data_all_around and get_3d_mesh_data_all_around return n_ref+1 meshes, the first being the initial mesh and each later one the refinement of its predecessor; get_mesh_convex returns n_ref meshes with size factor init/2^j. On domains with non-negative first coordinate every cell is marked for refinement.",
 "all n_ref, all initial meshes", "All refinement depths.", [ME+":get_mesh_hierarchy", ME+":get_mesh_convex", ME+":get_mesh_data_all_around"])
add("Mesh builders accept gmsh's node numbering",
 "get_mesh_inclusion and get_mesh_bottom_data accept every contiguous 1-based node numbering produced by gmsh, in any order, and place the coordinates of node tag i+1 at row i. Whatever tables gmsh returns, no row of coordinates, cell or corner is dropped silently if the builder gets as far as create_mesh. (get_mesh_inclusion_square never returns: besides the test it uses an undefined function.)",
 "all node tag permutations and coordinates", "All permutations. (Violated: the sequential-numbering check is inverted, so every valid numbering is rejected with RuntimeError; proved, along with correctness of the reordering itself.)", [ME+":get_mesh_inclusion", ME+":get_mesh_bottom_data"])
add("Planar coordinates are extracted correctly",
 "Dropping every third entry of gmsh's flat coordinate list and reshaping yields exactly the (x,y) pairs of all nodes in order.",
 "all node lists", "All lengths.", [ME+":get_mesh_inclusion"])
add("Every surface and boundary line gets its marker",
 "In the hierarchy builders each surface receives exactly one of the three region markers according to its centre of mass, and a line is put in the boundary group exactly when its centre of mass is within tolerance of one of the four sides; in the generic builders surface i receives marker i, so markers are distinct.",
 "all entity lists and centres of mass", "All geometries.", [ME+":get_mesh_hierarchy", ME+":get_mesh_inclusion"])
add("Data-domain indicator functions",
 "The script indicator functions return one value per point, 1 on the stated closed data region and 0 elsewhere, for every array of points; in 3D the callable and the UFL version agree except on the faces where a coordinate equals DATA_SIZE or 1-DATA_SIZE.",
 "all point arrays", "All points.", ["src/dxss/solve_1d.py:omega_ind_nogcc","src/dxss/solve_2d.py:omega_ind_convex","src/dxss/solve_3d.py:GCC"])
add("Parallel mesh reading waits for the writer",
 "In the file-based mesh builders no MPI rank reads the mesh file before rank 0 has finished writing it, for every interleaving of the ranks, provided opening the file is a synchronising collective; without that guarantee an interleaving exists in which a rank reads a missing file.",
 "all rank counts and schedules", "Schedules.", [ME+":create_initial_mesh_convex", ME+":get_mesh_hierarchy", ME+":get_mesh_data_all_around"])
add("Geometry of the bottom-data mesh",
 "For every eta in [0.25, 0.9] the rectangles added by get_mesh_bottom_data cover the unit square and stay inside it, and the ones other than the upper target block have disjoint interiors.",
 "all eta, all points", "All eta and points.", [ME+":get_mesh_bottom_data"])
add("DOLFINx version switch",
 "get_mesh_data_all_around passes the mesh to compute_incident_entities exactly for installed versions ordered before 0.7 and the topology otherwise; the other hierarchy builders pass the mesh for every version. Versions are ordered as PEP 440 prescribes (development, alpha, beta, candidate, release, post-release). The order is strict: asymmetric, transitive, and two versions are incomparable only if they agree up to trailing zeros of the release number. Local versions (such as 0.7+cpu.1) come after the version itself and are ordered by their segments: numbers by value, texts alphabetically, a text before a number.",
 "all release numbers", "All versions.", [ME+":get_mesh_data_all_around", ME+":get_mesh_hierarchy"])
add("Hierarchy builders work with every declared DOLFINx version",
 "For every released DOLFINx version allowed by the declared requirement fenics-dolfinx>=0.6, get_mesh_hierarchy, get_mesh_hierarchy_nonconvex, get_mesh_hierarchy_fitted_disc, get_mesh_data_all_around and get_3d_mesh_data_all_around return their hierarchy.",
 "all released versions, all n_ref, all builders", "All versions. (Violated: the first three pass the mesh instead of its topology from 0.7 on, a TypeError for every n_ref >= 1; proved exactly when each builder works.)", [ME+":get_mesh_hierarchy", ME+":get_mesh_hierarchy_nonconvex", ME+":get_mesh_hierarchy_fitted_disc"])
add("Repeated parallel calls read what the same call wrote",
 "When get_mesh_convex builds several meshes in a row, every rank reads in each call the files written in that call, for all numbers of ranks and all schedules.",
 "all rank counts, call counts and schedules", "Schedules. (Violated for the file of facet tags: rank 0 may already overwrite it in the next call; proved for one process and for the last call.)", [ME+":create_initial_mesh_convex", ME+":get_mesh_convex"])
add("Target blocks of the disc-fitted mesh meet only on the interface",
 "In get_mesh_hierarchy_fitted_disc the lower and the upper target block have only points of the interface y = eta in common.",
 "all eta in (0.25, 0.95), all points", "All eta. (Violated: the upper block starts at eta-0.25 and overlaps the lower one for every eta; proved, with covering of the unit square as the positive part.)", [ME+":get_mesh_hierarchy_fitted_disc"])
add("Boundary group consists of the boundary lines",
 "In every builder the lines put in the boundary group are exactly those on the boundary of the domain.",
 "all line lists", "All geometries. (Violated in get_mesh_inclusion, whose domain is [-1.5,1.5]^2 while the test is the one for the unit square; proved for the builders on the unit square when inner lines keep a distance of 2e-5.)", [ME+":get_mesh_inclusion", ME+":get_mesh_hierarchy"])
add("Slab matrix with forward jumps is non-singular",
 "With jumps_in_fw_problem=True, whenever the product of the primal-jump and dual weights dominates the forward coupling, (|1+eps|+1e-20)^2 < 4*primal-jump*dual, the matrix returned by get_slab_matrix() gives exactly one solution for every right-hand side, for every supported pair of orders and every spatial discretisation.",
 "all q, qstar, discretisations, weights, step lengths, eps", "Non-singularity for every mesh and weight.", [ST+":SpaceTime.setup_slab_matrix", ST+":SpaceTime.get_slab_matrix"])
add("One-sided space-time matrix is non-singular and exact slab solvers exist",
 "In the well-posed configuration without forward jumps the matrix get_spacetime_matrix(precond=True) gives exactly one solution for every right-hand side, and for every right-hand side the two slab systems of the preconditioner have exactly one solution.",
 "all N, q, qstar, discretisations, weights", "Non-singularity for every mesh and N.", [ST+":SpaceTime.setup_spacetime_matrix", ST+":SpaceTime.pre_time_marching_improved"])
add("Right-hand side is the load functional of the method",
 "The vector returned by get_spacetime_rhs(), paired with the coefficients of any test function, is the sum over slabs of data weight times the quadrature (the object's Gauss-Radau rule on that slab) of the omega-integral of the measured solution against the primal test function, plus in the well-posed configuration the two primal-jump terms with the stored initial data, plus 1e-20 times the mass of the first dual component; this holds for every construction, every dof numbering and every request history that does not write the initial data.",
 "all N, q, qstar, time-dependent data, histories, test functions", "Functional identity for all data and sizes.", [ST+":SpaceTime.setup_rhs", ST+":SpaceTime.get_spacetime_rhs", ST+":SpaceTime.__init__"])
add("Consistency with the continuous wave equation",
 "If the measured solution is an exact solution of the wave equation with homogeneous Dirichlet data, inserting it in the space-time variational form gives, for every discrete test function, the right-hand side of the method up to the quadrature error of the data term and the 1e-20 placeholder; that quadrature error is bounded by dt*(2*delta + 1e-6*sum|coefficients|) whenever the integrand is within delta of a polynomial of degree at most six.",
 "all exact solutions, discretisations, test functions", "All solutions of a PDE.", [ST+":SpaceTime.setup_rhs", ST+":SpaceTime.setup_spacetime_matrix", "src/dxss/precomp_time_int.py:QuadRule"])
add("Error identity for the computed solution",
 "For every solution x of the system A x = b with A from get_spacetime_matrix() and b from get_spacetime_rhs(), and for every discrete comparison function xs, the stability energy of x - xs equals the consistency residual of xs against the exact solution plus the quadrature error of the data term plus 1e-20 times the first-component placeholder pairing.",
 "all exact solutions, discretisations, histories, comparison functions", "All solutions and discretisations.", [ST+":SpaceTime.get_spacetime_rhs", ST+":SpaceTime.get_spacetime_matrix"])
add("Scripts solve with the data of their sample solution",
 "In solve_1d, solve_2d and solve_3d the vector returned by get_spacetime_rhs() is, up to the 1e-20 placeholder, the load functional of the sample solution on the script's data domain.",
 "all spatial discretisations, all sample solutions, all test functions", "Functional identity for all meshes. (Violated: the indicator function is replaced by an empty one before it is interpolated; proved that the right-hand side of every script is the placeholder alone, the same for every sample solution and data domain, so is the matrix, and the energy of the computed solution is of the size of the placeholder.)", ["src/dxss/solve_1d.py:ST","src/dxss/solve_2d.py:ST","src/dxss/solve_3d.py:ST", ST+":SpaceTime.__init__"])
add("Sample solutions of the scripts solve the wave equation",
 "The sample solution of each script satisfies the wave equation at every time and point, vanishes on the boundary of the unit interval, square or cube, is not zero, and the function given as its derivative is its time derivative.",
 "all times and points", "All real times and points.", ["src/dxss/solve_1d.py:sample_sol","src/dxss/solve_2d.py:sample_sol","src/dxss/solve_3d.py:sample_sol"])
add("Unique solvability from data alone",
 "With well_posed=False (the default) the system with the matrix of get_spacetime_matrix() has exactly one solution for every right-hand side whenever the data observe the discrete states with a constant K such that K*1e-40*(qstar+1)^2 < dual*dt; data that together with the boundary values and the jumps of the gradient determine the finite element functions observe with K = c*(q+1)^2/dt, and imposed initial values observe with K = dt/primal-jump.",
 "all N, q, qstar, discretisations, weights, histories", "Non-singularity for every mesh and N.", [ST+":SpaceTime.setup_spacetime_matrix", ST+":SpaceTime.get_spacetime_matrix"])
add("Data are observed from the start time on",
 "With start time t and final time T passed to the constructor, values of the solution outside [t, t+T] have no influence on the right-hand side.",
 "all start times, step numbers, solutions, discretisations", "All solutions. (Violated: the start time is stored and never read; proved that exactly values at times in [0, T] can enter and that the start time and the derivative have no influence.)", [ST+":SpaceTime.__init__", ST+":SpaceTime.setup_rhs"])
add("Noise in the data is not amplified",
 "Let two objects be built with the same arguments except for the measured solution, and let them have any initial data. If the data observe the discrete states (with constant K such that K*1e-40*(qstar+1)^2 <= 0.01*dual*dt), the stability energy of the difference of any two solutions of their systems (matrix of get_spacetime_matrix(), vector of get_spacetime_rhs()) is at most twice the size of the difference of the data: data weight times the quadrature of the squared noise over the data domain, plus, in the well-posed configuration, primal-jump weight times the energy of the difference of the initial data. Histories of the two objects do not matter.",
 "all N, q, qstar, discretisations, weights, measurements, noise, initial data, histories", "A bound for all noise signals.", [ST+":SpaceTime.get_spacetime_rhs", ST+":SpaceTime.get_spacetime_matrix", ST+":SpaceTime.setup_rhs"])
add("Error estimate for the computed solution",
 "Let the measured solution and the initial data be those of an exact solution of the wave equation with homogeneous Dirichlet values, and let the data (or, in the well-posed configuration, the initial values) observe the discrete states. For every solution x of A x = b (A from get_spacetime_matrix(), b from get_spacetime_rhs()) and every discrete primal pair xs, the stability energy of x - xs is at most 3 times the distance of xs to the exact solution (residual of the wave operator, stabilisation terms, misfit on the data domain, initial misfit, jumps), plus 6 times the sum of (2e-5)^2 times the data energy of xs, caused by the six-digit quadrature constants, and the square of the 1e-20 placeholder times (qstar+1)^2/(dual*dt) times the mass of 1 - xs(0).",
 "all N, q, qstar, discretisations, weights, exact solutions, comparison functions, histories", "An estimate for all solutions of a PDE and all meshes.", [ST+":SpaceTime.get_spacetime_rhs", ST+":SpaceTime.get_spacetime_matrix", ST+":SpaceTime.setup_rhs", "src/dxss/precomp_time_int.py:QuadRule"])
add("Files written by plot_para_view hold the nodal errors at the end time",
 "plot_para_view(v, name) on a set-up object writes exactly two files, name-u.xdmf with the function u-abserr and name-ut.xdmf with ut-abserr. Their values are, at every node of the primal scalar space, the absolute difference at the end time T between the exact displacement and the discrete displacement of v, and between the exact velocity and the velocity component of v. The displacement used is the one measured_errors(v) uses at T.",
 "all vectors, discretisations, dof numberings, exact solutions, N, q", "All vectors and meshes, node by node.", [ST+":SpaceTime.plot_para_view"])
add("Solutions can be evaluated on every MPI rank",
 "On every rank of a parallel run, measured_errors, plot, plot_error and plot_para_view load the solution vector they are given into the discrete function; in fact they raise ValueError on exactly the ranks that have ghost dofs (unless the rank owns a single dof), and copy every entry on ranks without.",
 "all numbers of owned and ghost dofs, all contents",
 "Sequential tests never see ghost dofs.",
 [ST+":SpaceTime.measured_errors", ST+":SpaceTime.plot", ST+":SpaceTime.plot_error", ST+":SpaceTime.plot_para_view"])
add("Matrix-free product and array bounds",
 "On every rank, the matrix-free product returns a vector with the owned entries; in fact it raises IndexError on every rank with ghost dofs, for whatever vectors, and returns if and only if there are none. On one process it therefore never leaves the bounds of an array, and gives entry for entry the product described by C17 and C18.",
 "all dof layouts, numbers of slabs, owned and ghost dofs, all contents of the vectors",
 "Sequential tests never see ghost dofs; bounds must hold for all layouts.",
 [ST+":SpaceTime.apply_spacetime_matrix"])
add("The right-hand side does not depend on the distribution of the mesh",
 "The assembled right-hand side is the same on any number of ranks; in fact each entry lacks exactly the integrals over those cells that are not on the rank owning the dof (the contributions to ghost dofs are never sent to their owner). It is right if the basis functions of a rank's dofs vanish on other ranks' cells, in particular on one rank.",
 "all distributions of cells and dofs over ranks, all data",
 "Needs all partitions; sequential tests have one.",
 [ST+":SpaceTime.setup_rhs", ST+":SpaceTime.get_spacetime_rhs"])
add("Every error sample time is measured in floating-point arithmetic",
 "With the step length, the slab boundaries and the 105 sample times computed in binary64 arithmetic as the code does, every sample time lies in the closed interval of some slab, so that measured_errors evaluates the error there. In fact the final time itself can be missed (final time 1, six slabs: the last slab ends at 1-2^-53), so that the reported maximum may omit the error at the final time; every sample time is found when final time and number of slabs are powers of two, and a sample time that is missed lies within T*2^-51 of an exact slab boundary.",
 "all representable final times, all numbers of slabs, all 105 sample times",
 "Rounding for all final times and slab numbers. (Violated; the power-of-two case and the bound on where samples can be missed are proved.)",
 [ST+":SpaceTime.measured_errors", ST+":SpaceTime.__init__"])
add("Coarse space-time matrix",
 "After any calls on an object, the matrix returned by get_spacetime_matrix_coarse() belongs to a mesh given to prepare_coarse_grid_correction, and to the last one if that call returned. It is the matrix of the symmetric space-time variational form on that mesh: integrals of the coarse mesh, indicator function interpolated to the coarse mesh, time discretisation and weights of the object (plus the 1e-20 placeholder). In the well-posed configuration every system with it has exactly one solution.",
 "all call histories, coarse meshes, discretisations, coefficient vectors",
 "All histories and meshes.",
 [ST+":SpaceTime.prepare_coarse_grid_correction", ST+":SpaceTime.get_spacetime_matrix_coarse", ST+":SpaceTime.setup_spacetime_matrix"])
add("The preconditioner solves with the matrices handed out by the object",
 "Let A1 and A2 be what get_slab_matrix_first_slab() and get_slab_matrix() return at any time (both are available after setup_spacetime_finite_elements() and prepare_precondition_gmres()), and let the two solvers set by the user solve systems with A1 and A2. After these calls and any others, pre_time_marching_improved(b, x) leaves in x, if it returns, a solution of the system with the matrix of get_spacetime_matrix(precond=True) and right-hand side b, up to the 1e-20 entries of the slab matrices. With well_posed=False, if the data observe the states of the first slab, such solvers exist and that matrix is non-singular.",
 "all N, q, qstar, dof numberings, call histories, solvers, right-hand sides",
 "All call histories and discretisations.",
 [ST+":SpaceTime.get_slab_matrix_first_slab", ST+":SpaceTime.get_slab_matrix", ST+":SpaceTime.pre_time_marching_improved", ST+":SpaceTime.prepare_precondition_gmres"])
add("The solution returned by GMRES approximates the wave",
 "There is a constant c depending only on the discretisation with: (a) for every b and x the stability energy of the distance of x to the solution of the discrete system is at most c times the squared norm of the residual of x; (b) if get_gmres_solution, called with the matrix-free product and the time-marching preconditioner, returns x, the energy of its distance to the exact discrete solution is at most c times the square of max(reltol*norm(pre(b)), tol) plus c*1e-40*norm(x)^2; (c) with b from get_spacetime_rhs() and data of an exact wave, the energy of x - xs for any discrete primal pair xs is at most twice the bound of C71 plus the term of (b).",
 "all tolerances, right-hand sides, waves, comparison functions, call histories, PETSc solvers that stop by the convergence test on the preconditioned residual",
 "A bound for all tolerances and data.",
 ["src/dxss/gmres.py:get_gmres_solution", ST+":SpaceTime.apply_spacetime_matrix", ST+":SpaceTime.pre_time_marching_improved", ST+":SpaceTime.get_spacetime_rhs"])
add("Calls write only into their output vector",
 "Whatever calls are made on an object, in whatever order, and whether they return or raise: a vector of the caller changes only if it is passed as the output argument of a call (the product, the preconditioners, q_op, the slab and coupling products, prolongation, restriction) or is written by the caller. In particular the input of a product or of a preconditioner is unchanged unless it is also its output.",
 "all call histories, vectors, external failures",
 "All histories, including those with failing solvers and assemblies.",
 [ST+":SpaceTime.apply_spacetime_matrix", ST+":SpaceTime.pre_time_marching", ST+":SpaceTime.pre_time_marching_improved", ST+":SpaceTime.pre_twolvl", ST+":SpaceTime.q_op", ST+":SpaceTime.prolongation", ST+":SpaceTime.restriction", ST+":SpaceTime.slab_matrix_no_dg_jumps_multiply", ST+":SpaceTime.coupling_matrix_between_slices_multiply"])
add("Markers of the planar meshes denote the intended subdomains",
 "In the planar hierarchies with markers, the surfaces marked 1, 2 and 3 make up the data domain, the target domain outside the data domain, and the rest, up to sets without area. This holds for create_initial_mesh_convex, get_mesh_convex and get_mesh_hierarchy. In get_mesh_hierarchy_nonconvex marker 1 is right, but the markers of the target domain and of the rest are exchanged: the test compares the centre of mass of a surface with the centre of the whole target domain, which is the centre of mass of the rest.",
 "all points of the domain; centres of mass are the integrals over the surfaces",
 "Needs the centres of mass of the surfaces made by gmsh. (Violated for the non-convex mesh.)",
 ["src/dxss/meshes.py:create_initial_mesh_convex","src/dxss/meshes.py:get_mesh_hierarchy","src/dxss/meshes.py:get_mesh_hierarchy_nonconvex"])
add("Data domains marked as fitted are resolved by the mesh",
 "Interpolating the indicator function of a script into the cell-wise constant functions (its values at the midpoints) gives the indicator function at every inner point of every cell, whenever the script marks the data domain as fitted: in 1D for every N with 5N intervals; in 2D for every mesh of the hierarchy of get_mesh_data_all_around; in 3D for Nx = 4, 8, 16, ... cells per direction. For Nx = 2, where solve_3d.py sets fitted=False, no cell-wise constant function is the indicator.",
 "all N, numbers of cells divisible by 4, refinements, cells and points in them",
 "All meshes and all points of all cells.",
 ["src/dxss/solve_1d.py:omega_ind_nogcc","src/dxss/solve_2d.py:omega_ind_convex","src/dxss/solve_3d.py:Nx","src/dxss/meshes.py:get_mesh_data_all_around"])
add("The time-marching preconditioner works on every MPI rank",
 "On every rank, pre_time_marching_improved (without forward jumps, with slab solvers that return) returns a vector with the owned entries; in fact it raises IndexError on every rank with ghost dofs in one of its spaces, for whatever vectors, and returns on ranks without. On one process it therefore never leaves the bounds of an array, whatever its work vectors contain, and gives entry for entry the result described by C20 to C24.",
 "all dof numberings, numbers of owned and ghost dofs, N, q, qstar, solvers, vectors",
 "All distributions of dofs; the tests run on one process. (Violated on ranks with ghost dofs.)",
 [ST+":SpaceTime.pre_time_marching_improved"])
add("GMRES with the time-marching preconditioner needs few steps",
 "Without forward jumps and with well_posed=False, on an object prepared by the documented calls with solvers for the handed-out (non-singular) slab matrices: (a) pre_time_marching_improved applied to apply_spacetime_matrix(x) gives x back if and only if, at every interface of two slabs, the second component of x does not jump and the jump of the first is balanced by the 1e-20 entry of the coupling matrix (so it is at most 1e-20*dt/gamma times the value before the interface); (b) if the data observe the states, then for every b the first r+1 of the vectors pre(b), pre(A pre(b)), ... span the solution of A x = b, where r is the number of coefficients of the two components at the N-1 interfaces, whatever the number of multipliers and inner times; (c) so get_gmres_solution with maxsteps > r and restart >= maxsteps returns, given a GMRES in exact arithmetic.",
 "all N, q, qstar, finite element spaces, right-hand sides, tolerances, call histories",
 "The number of steps for every discretisation and every right-hand side.",
 ["src/dxss/gmres.py:get_gmres_solution", ST+":SpaceTime.apply_spacetime_matrix", ST+":SpaceTime.pre_time_marching_improved"])
add("Coarse-grid calls act on functions by interpolation",
 "After any calls of which prepare_coarse_grid_correction returned, and any others afterwards that do not prepare again (failing ones included): prolongation(x, y) and restriction(x, y) return, and at every component, slab and time node the function in the output is the interpolation of the function in the input. If interpolation to the fine mesh and back is the identity on the coarse space, restriction after prolongation is the identity. q_op(b, x), with a solver for the matrix of get_spacetime_matrix_coarse(), returns the prolongation of the solution of the variational problem on the coarse mesh whose right-hand side is the restriction of b.",
 "all call histories, meshes with one scalar space for all components, interpolation maps, vectors, coarse solvers",
 "All histories and interpolation operators.",
 [ST+":SpaceTime.prolongation", ST+":SpaceTime.restriction", ST+":SpaceTime.q_op", ST+":SpaceTime.prepare_coarse_grid_correction", ST+":SpaceTime.get_spacetime_matrix_coarse"])
add("A failing change of the coarse mesh leaves matrix and transfers of one mesh",
 "An object prepared with one coarse mesh is prepared with another one and that call fails in one of its external operations. Then the matrix of get_spacetime_matrix_coarse() and the functions computed by prolongation and restriction belong to the same mesh. In fact they do not if the assembly of the coarse matrix fails: the transfers are those of the new mesh and the matrix is the old one. For every other failing operation they agree, and repeating the call always gives the matrix and the transfers of the new mesh.",
 "all call histories, pairs of meshes, failing operations",
 "Failures of the assembly at every point of every history. (Violated for one failing operation.)",
 [ST+":SpaceTime.prepare_coarse_grid_correction", ST+":SpaceTime.get_spacetime_matrix_coarse", ST+":SpaceTime.prolongation", ST+":SpaceTime.restriction"])
add("A repeated preparation cannot be told from an undisturbed one",
 "If prepare_precondition_gmres() on a set-up object fails in one of its external operations and is called again, the object cannot be distinguished from one whose preparation was not disturbed: every call afterwards has the same outcome, every request returns the same and the vectors of the caller are equal after any sequence of calls. In fact this holds for every failing operation but three, the allocations of work vectors after the guarding attribute was set; for these the repeated call returns, but (with at least two slabs and no forward jumps) a later call raises which returns on the undisturbed object.",
 "all discretisations, initial data, failing operations and sequences of calls afterwards",
 "All sequences of calls after the failure. (Violated for three failing operations.)",
 [ST+":SpaceTime.prepare_precondition_gmres", ST+":SpaceTime.setup_slab_matrix", ST+":SpaceTime.setup_coupling_matrix_between_slices", ST+":SpaceTime.setup_scaled_mass_matrix_between_slices"])
add("A failing request changes nothing",
 "If a request (get_spacetime_matrix, get_spacetime_bfi, get_spacetime_rhs, get_spacetime_lfi, get_slab_matrix, get_slab_bfi) fails in one of its external operations, the object is as before: no later call can tell the difference, and the request can be repeated. This holds for the first four from every state. It does not hold for get_slab_matrix and get_slab_bfi, which build two operators in turn: if the second fails with well_posed=True, the repeated request returns the matrix, but apply_spacetime_matrix raises AttributeError after whatever further calls (except setup_slab_matrix(False)), whereas it works after an undisturbed request. With well_posed=False, prepare_precondition_gmres() repairs this. In every case the repeated request returns once nothing fails any more.",
 "all discretisations, call histories before and after, failing operations",
 "Failures at every point of every history. (Violated for the slab matrix and form.)",
 [ST+":SpaceTime.get_slab_matrix", ST+":SpaceTime.get_slab_bfi", ST+":SpaceTime.setup_slab_matrix", ST+":SpaceTime.get_spacetime_matrix", ST+":SpaceTime.setup_spacetime_matrix", ST+":SpaceTime.get_spacetime_rhs", ST+":SpaceTime.setup_rhs"])
add("Order of convergence in time",
 "Refine the time mesh (pass a larger N to SpaceTime) and keep the mesh, elements, stabilisation and data. Data and initial values are those of a solution u of the wave equation; the data or the initial values observe the states (C68). There is one constant c for all N such that: (a) for every path p in the finite element space with q+1 time derivatives bounded by M, the solution of the system handed out by get_spacetime_matrix and get_spacetime_rhs differs from the interpolant of p at the time nodes, in the energy of the method, by at most c*M^2*dt^(2q) plus six times the distance of u and p (which does not involve the time mesh functions) plus a floor from the six-digit quadrature weights and the placeholder value; (b) if u itself lies in the finite element space, the error of the computed solution (misfit on the data domain, boundary values, residual, initial values, jumps between slabs) is at most c*M^2*dt^(2q) plus that floor.",
 "all N, orders q in 1..3 and qstar, spaces with non-negative forms, solutions with q+1 bounded derivatives, call histories",
 "A rate for every solution and every number of slabs; a convergence study shows finitely many N for one solution.",
 [ST+":SpaceTime.get_spacetime_matrix", ST+":SpaceTime.get_spacetime_rhs", "src/dxss/precomp_time_int.py:get_elmat_time"])
add("Convergence of the reported errors",
 "Refine the time mesh as in C89, with data and initial values of a solution u of the wave equation, when data, boundary values and jumps of the gradient together determine the finite element functions (constant cd). There is one constant c for all N such that measured_errors, called with the solution of the system handed out by get_spacetime_matrix and get_spacetime_rhs (in any state of the object), reports numbers with: the squares of L2-u1-T and L-infty-L2-error-u are at most 48(q+1)^4*cd/dt*Y + R + 4G, that of L-infty-L2-error-u_t at most 944(q+1)^4*cd/dt^3*Y + R + 4G', that of L2-L2-error-u_t at most 944(q+1)^4*cd/dt^2*Y + T*(R+4G'). Here p is any path in the finite element space with q+1 derivatives bounded by M, G and G' bound the squared distance of p and u and of their time derivatives, R = c*M^2*dt^(2q), and Y is R plus six times the distance of u and p in the norm of the method plus six times a floor from the six-digit quadrature weights and the placeholder value.",
 "all N, orders q in 1..3 and qstar, spaces with non-negative forms, solutions, approximating paths with q+1 bounded derivatives, call histories before every call",
 "A rate for every solution and every number of slabs; a convergence study shows finitely many N for one solution.",
 [ST+":SpaceTime.measured_errors", ST+":SpaceTime.get_spacetime_matrix", ST+":SpaceTime.get_spacetime_rhs"])
add("pre_time_marching with forward jumps",
 "With jumps_in_fw_problem=True (which pre_time_marching_improved refuses), pre_time_marching(b, x) on an object prepared by the documented calls, with solvers of the handed-out slab matrices, solves P x = b up to the 1e-20 placeholders, where P is the matrix of get_spacetime_matrix(precond=True), as it does without forward jumps. In fact it does not: for every choice of the flags, P x plus an explicit defect equals b. The defect consists of the placeholders, minus the adjoint interface terms (the multipliers at the bottom of each slab tested with the jump of the test functions, which no slab matrix contains), eps times the values below each interface, and, with well_posed=True, forward-jump terms on the first slab which P does not have. The system with the defect determines the result, and for non-singular slab matrices there is always a right-hand side for which P x differs from b in a row without placeholders.",
 "all configurations (both flags), N, q, qstar, right-hand sides, call histories",
 "An equation between operators for all vectors and numbers of slabs. (Violated with forward jumps and two slabs or more.)",
 [ST+":SpaceTime.pre_time_marching", ST+":SpaceTime.setup_slab_matrix", ST+":SpaceTime.get_spacetime_matrix"])
add("Linear elements in one dimension: the system is solvable whatever the data domain",
 "On any mesh of an interval with continuous piecewise linear elements, the stabilisation (boundary values and jumps of the gradient) alone controls every finite element function. Hence the matrix of get_spacetime_matrix is invertible for every data domain, the empty one included, as long as the placeholder value 1e-20 stays small against the stabilisation. For the parameters of solve_1d.py this is the case for all numbers n of cells and N of slabs with n*N <= 1e16, after any calls.",
 "all interval meshes, positive stabilisation parameters, data domains, numbers of slabs, call histories",
 "Invertibility for every mesh and every data domain.",
 [ST+":SpaceTime.get_spacetime_matrix", ST+":SpaceTime.setup_spacetime_matrix", "src/dxss/solve_1d.py"])
add("solve_1d.py reconstructs its wave",
 "For the linear system set up by solve_1d.py on create_unit_interval(160), measured_errors reports for the solution of the system an error at the final time of at most half the norm of the wave cos(2 pi t) sin(2 pi x) to be reconstructed. In fact, on every unit interval mesh with at most 1000 cells and for every data domain, the reported errors are up to 1e-9 those of the zero function, namely sqrt(1/2), sqrt(1/2), sqrt(2)*pi and pi (for the zero vector they are exactly these), so nothing is reconstructed. The same holds for the dictionary the whole program computes, with either back end.",
 "all meshes with up to 1000 cells, data domains, interpolation operators, back ends, call histories, solution vectors",
 "The solution of the system is the unknown of the program; the bound holds for all meshes and data domains. (Violated, as consequence of C35.)",
 ["src/dxss/solve_1d.py", ST+":SpaceTime.measured_errors", ST+":SpaceTime.get_spacetime_rhs"])
add("Waves on an interval satisfy the discrete equations",
 "Let u(t,x) be a solution of the wave equation on an interval which vanishes at both ends, in the sense of calculus (pointwise derivatives), let the sample solution of the problem be u and pass u(0), u_t(0) as initial data. Then on any interval mesh, with any continuous elements and orders in time, the vector returned by get_spacetime_rhs paired with any vector y equals the bilinear form of the method at (u, u_t) tested with y, up to the 1e-20 placeholder and the error of the time quadrature of the data term. No property of an abstract space is assumed: partial integration with the boundary fluxes of the code is proved.",
 "all interval meshes, continuous elements, orders, numbers of slabs, waves analytic in space, data domains, call histories, test vectors",
 "An identity for all waves, meshes and test functions; a numerical test only sees rounding-contaminated residuals of one wave.",
 [ST+":SpaceTime.get_spacetime_rhs", ST+":SpaceTime.setup_rhs", ST+":SpaceTime.setup_spacetime_matrix"])
add("solve_1d.py with data everywhere reconstructs its wave",
 "Take the parameters of solve_1d.py, but with data on the whole interval through a DataDomain with fitted=False, N slabs and n >= N cells (100 <= N <= 1e15). If a vector solves the system of get_spacetime_matrix and get_spacetime_rhs, the errors L2-u1-T and L-infty-L2-error-u that measured_errors reports for it are at most sqrt(2000/N + N/1e6) + 9/N^2. In particular, for 20000 <= N <= 100000 the reported error at the final time is at most half the norm of the wave, which is what fails for the script as it is (C93). The system has exactly one solution for n*N <= 1e16.",
 "all numbers of slabs and cells in the stated range, solution vectors, call histories before each call",
 "An a-priori error bound with explicit constants for all meshes; running one mesh only shows one number. The term N/1e6 is a bound of the floor due to the six-digit quadrature tables.",
 ["src/dxss/solve_1d.py", ST+":SpaceTime.measured_errors", ST+":SpaceTime.get_spacetime_rhs", ST+":SpaceTime.get_spacetime_matrix"])
add("Calls depend on their arguments only",
 "Let the caller change one of their vectors, or the right-hand side they got, at any point. As long as this vector is not passed to a call, every call has the same outcome (including exceptions), every request (matrices, forms, errors of another vector) returns the same and all other vectors of the caller have the same content as without the change; a vector of the caller keeps the content they gave it. In particular no method keeps a hidden reference to a vector passed earlier.",
 "all configurations, states of the object (reachable or not), failures of external operations, contents, call sequences",
 "Non-interference compares pairs of executions, for all call sequences.",
 [ST+":SpaceTime.apply_spacetime_matrix", ST+":SpaceTime.pre_time_marching_improved", ST+":SpaceTime.pre_time_marching", ST+":SpaceTime.measured_errors", ST+":SpaceTime.get_spacetime_rhs", ST+":SpaceTime.q_op"])
add("The right-hand side cannot be spoiled by the caller",
 "Whatever the caller does with the vector they got from get_spacetime_rhs() (e.g. scale it in place), the next get_spacetime_rhs() returns the right-hand side of the problem. In fact the vector returned is the cached one: after a change all requests return what the caller wrote, whatever is called in between except setup_rhs(). Calls the vector is not passed to do not notice the change, and a call of setup_rhs() that returns restores everything.",
 "all configurations, call histories before and after, contents written",
 "All histories between the change and the request. (Violated.)",
 [ST+":SpaceTime.get_spacetime_rhs", ST+":SpaceTime.setup_rhs"])
add("Stabilisation parameters: missing ones are reported, others do not matter",
 "The object looks parameters up in the dictionary stabilisation_terms when a form is built. If the four entries data, dual, primal, primal-jump are present, every call behaves as if their values had been fixed at construction. A call is affected only by the entries it needs in the present state of the object (a request that is answered from the cache needs none; further entries of the dictionary never matter). After setup_spacetime_finite_elements() a call that needs a missing entry raises KeyError and leaves the object and all vectors unchanged, except that prepare_coarse_grid_correction has replaced the coarse dof maps and that prepare_precondition_gmres may have built the coupling matrix before.",
 "all configurations, dictionaries, states of the object, calls, failures of external operations",
 "All dictionaries and all states; tests use complete dictionaries.",
 [ST+":SpaceTime.__init__", ST+":SpaceTime.setup_spacetime_matrix", ST+":SpaceTime.setup_rhs", ST+":SpaceTime.setup_slab_matrix", ST+":SpaceTime.prepare_precondition_gmres", ST+":SpaceTime.pre_time_marching"])
add("Changes of the stabilisation parameters are honoured",
 "When the caller changes entries of the dictionary passed as stabilisation_terms, the matrices returned afterwards by get_slab_matrix and get_spacetime_matrix belong to the values the dictionary then contains. In fact only changes made before the first call that builds a form are honoured. What was built is kept: every operator of the object belongs to the values at some earlier moment, possibly different moments. For instance, if the slab matrix is requested, an entry is changed and prepare_precondition_gmres() is called, the slab matrices belong to the old and the interface matrices and the right-hand side to the new values, without an error. setup_slab_matrix, setup_coupling_between_slices, setup_scaled_mass_matrix_between_slices and setup_rhs always use the current values.",
 "all configurations, dictionaries, interleavings of calls, assignments and deletions, failures of external operations",
 "All interleavings of calls and changes. (Violated.)",
 [ST+":SpaceTime.get_slab_matrix", ST+":SpaceTime.get_spacetime_matrix", ST+":SpaceTime.prepare_precondition_gmres", ST+":SpaceTime.setup_slab_matrix"])
add("The numbering of the degrees of freedom does not matter",
 "DOLFINx decides how the dofs of the mixed spaces are numbered. Let two objects be constructed with the same data, the same scalar spaces and the same basis functions, but with any two numberings of the four mixed spaces (space-time, slab, coupling, interface). After the same calls on both, where vectors and slab solvers the caller hands over correspond (same coefficient for every component, time index and spatial basis function), every call returns or raises the same in both; the caller's vectors and the right-hand side correspond, so they represent the same discrete functions; the matrices have the same entry for every pair of basis functions; and measured_errors, plot and plot_error report the same numbers. Vectors are passed to calls for their space.",
 "all configurations, pairs of numberings, call histories, failures of external operations, slab solvers",
 "All numberings; a test runs with the one numbering its DOLFINx version produces.",
 [ST+":SpaceTime.setup_spacetime_finite_elements", ST+":SpaceTime.apply_spacetime_matrix", ST+":SpaceTime.pre_time_marching_improved", ST+":SpaceTime.pre_time_marching", ST+":SpaceTime.measured_errors", ST+":SpaceTime.plot", ST+":SpaceTime.q_op"])
add("Objects that share a data domain do not disturb each other",
 "Several SpaceTime objects may be constructed with the same DataDomain, whose indicator function the caller may also assign or interpolate between calls. What an object does and hands out depends on its own construction, the calls on it and the changes the caller makes to the domain: constructing or using other objects with the same domain makes no difference. In particular an indicator assigned after construction and before the first call that builds a form with a data term is used as if it had been passed to the constructor.",
 "all data domains, numbers of objects, constructor arguments, interleavings of constructions, calls and assignments, failures of external operations",
 "All interleavings of constructions, assignments and calls on several objects. (Violated: with fitted=True the construction of another object resets the indicator.)",
 [ST+":SpaceTime.__init__", ST+":DataDomain", ST+":SpaceTime.setup_slab_matrix", ST+":SpaceTime.setup_rhs", ST+":SpaceTime.setup_spacetime_matrix"])
add("Multilinear elements on boxes: the matrix is invertible",
 "On any grid of axis-parallel boxes in any number of dimensions (create_box with hexahedra, create_rectangle with quadrilaterals, graded or not) with continuous elements of order 1, the stabilisation (boundary values and jumps of the gradient) alone controls every finite element function. Hence the matrix of get_spacetime_matrix is invertible for every data domain, the empty one included, as long as the placeholder value 1e-20 stays small against the stabilisation. For the parameters of solve_3d.py this is the case for all numbers k of cells per direction and N of slabs with k*N <= 1e16, after any calls.",
 "all dimensions, grids, data domains, orders in time, numbers of slabs, weights, call histories",
 "Invertibility for all meshes and data domains; a test sees one matrix up to rounding.",
 [ST+":SpaceTime.get_spacetime_matrix", ST+":SpaceTime.setup_spacetime_matrix", "src/dxss/solve_3d.py"])
add("solve_3d.py reconstructs its wave",
 "For the linear system set up by solve_3d.py on its box of 16x16x16 hexahedra, measured_errors reports for the solution of the system an error at the final time of at most half the norm of the wave cos(sqrt(3) pi t) sin(pi x) sin(pi y) sin(pi z) to be reconstructed. In fact, with up to 1000 cells per direction and for every data domain, the reported errors are up to 1e-9 those reported for the zero vector, namely the norm of the wave (at least 1/4 at the final time, sqrt(1/8) as the largest), so nothing is reconstructed. The same holds for the dictionary the whole program computes, with either back end.",
 "all meshes with up to 1000 cells per direction, data domains, interpolation operators, back ends, call histories, solution vectors",
 "The solution of the system is the unknown of the program; the bound holds for all meshes and data domains. (Violated, as consequence of C35.)",
 ["src/dxss/solve_3d.py", ST+":SpaceTime.measured_errors", ST+":SpaceTime.get_spacetime_rhs"])
add("Waves on a box satisfy the discrete equations",
 "Let u(t,x) be a solution of the wave equation on a box in any number of dimensions which vanishes on the boundary, in the sense of calculus (pointwise derivatives), let the sample solution of the problem be u and pass u(0), u_t(0) as initial data. Then on any grid of axis-parallel boxes, with any elements continuous across the facets and orders in time, the vector returned by get_spacetime_rhs paired with any vector y equals the bilinear form of the method at (u, u_t) tested with y, up to the 1e-20 placeholder and the error of the time quadrature of the data term. The sample solution of solve_3d.py is such a wave, with the wave speed 1 the method assumes, so the statement applies to solve_3d.py with any number of cells and slabs and any data domain, provided its initial values are set on the object.",
 "all dimensions, grids, continuous elements, orders, numbers of slabs, waves analytic in space, data domains, call histories, test vectors",
 "An identity for all waves, grids and test functions; a numerical test only sees rounding-contaminated residuals of one wave.",
 [ST+":SpaceTime.get_spacetime_rhs", ST+":SpaceTime.setup_rhs", ST+":SpaceTime.setup_spacetime_matrix", "src/dxss/solve_3d.py"])
add("solve_3d.py with data everywhere reconstructs its wave",
 "Take the problem of solve_3d.py with N time slabs on a box of k x k x k hexahedra, 100 <= N <= k and N <= 1e13, with the data domain the whole box and not marked as fitted (so that the data enter, see C35). If a vector solves the linear system, then measured_errors reports for it errors of the displacement, at the final time and over time, of at most sqrt(21/N + N/4e6) + 6/N^2: first order convergence down to the floor caused by the rounded quadrature weights. In particular for 1000 <= N <= 85000 the error at the final time is at most half the norm of the wave, which is what fails for the script as it stands (C103). More generally, for any standing wave cos(omega t) s(x) on any domain with elements of order 1 to 3 in time, the reported errors are bounded by the errors of an interpolant of s, the step size and that floor, with explicit constants.",
 "all numbers of slabs and cells, standing waves, domains, interpolants, solution vectors, call histories",
 "An error bound with constants for all meshes and numbers of slabs; the sizes at which it is useful are out of reach of a test.",
 [ST+":SpaceTime.measured_errors", ST+":SpaceTime.get_spacetime_rhs", ST+":SpaceTime.get_spacetime_matrix", "src/dxss/solve_3d.py"])
add("Elements of every order: the matrix is invertible",
 "For continuous elements of any order, on any interval mesh or any grid of axis-parallel boxes in any number of dimensions, with any orders in time, the stabilisation of the method (boundary values, jumps of the gradient, residual of the wave equation) leaves no discrete function undetermined: a vector whose energy vanishes is zero. No data domain and no initial values are needed. Hence the squared norm of the initial value of u is at most a constant K, depending on the discretisation, times the energy; and with any such K the matrix of get_spacetime_matrix is invertible after any calls if the placeholder value 1e-20 is small against 1/K. The same holds for any mesh (for instance the triangulation of solve_2d.py) on which Green's formula, a bound for the boundary fluxes and Poincare's inequality hold.",
 "all dimensions, grids, orders in space and time, numbers of slabs, data domains, weights, call histories",
 "Invertibility for all meshes, orders and data domains; a test sees one matrix up to rounding.",
 [ST+":SpaceTime.get_spacetime_matrix", ST+":SpaceTime.setup_spacetime_matrix", "src/dxss/solve_1d.py", "src/dxss/solve_3d.py"])
add("solve_1d.py has a unique solution for every ORDER",
 "With the parameters of solve_1d.py, any value of ORDER (elements of order ORDER in space and time, as in the script), N time slabs and n cells with n*N^4 <= 1e12, and with any data domain, the matrix of get_spacetime_matrix is invertible after any calls. For arbitrary interval meshes, orders and parameters the same holds under an explicit condition on the mesh sizes, the step size and the stabilisation parameters; and the energy of the difference of two discrete functions bounds their distance over all slabs with an explicit constant.",
 "all numbers of cells and slabs with n*N^4 <= 1e12, orders, data domains, call histories",
 "Invertibility for all meshes, orders and data domains.",
 [ST+":SpaceTime.get_spacetime_matrix", ST+":SpaceTime.setup_spacetime_matrix", "src/dxss/solve_1d.py"])
add("Elements of higher order reconstruct the wave in solve_1d.py",
 "For the linear system set up by solve_1d.py with ORDER = k on its mesh of 160 cells, measured_errors reports for the solution of the system an error at the final time of at most half the norm of the wave to be reconstructed. In fact, with 32 to 1000 cells, 32 slabs and any order k >= 1, the reported errors are those of the zero function (sqrt(1/2) at the final time and as maximum, sqrt(2) pi and pi for the time derivative) up to 1e-3 for the function and 2e-2 for its time derivative. So raising the order does not help: nothing is reconstructed, for ORDER = 1, 2 and 3.",
 "all meshes with 32 to 1000 cells, orders, indicator functions, interpolation operators, call histories, solution vectors",
 "The solution of the system is the unknown of the program; the bound holds for all meshes and orders. (Violated, as consequence of C35.)",
 ["src/dxss/solve_1d.py", ST+":SpaceTime.measured_errors", ST+":SpaceTime.get_spacetime_rhs"])
add("Waves in the plane satisfy the discrete equations on every triangulation",
 "Let u(t,x) be a solution of the wave equation on a triangulated domain in the plane which vanishes on the boundary, in the sense of calculus (pointwise derivatives), let the sample solution of the problem be u and pass u(0), u_t(0) as initial data. Then on any triangulation, with continuous elements of any order and any orders in time, the vector returned by get_spacetime_rhs paired with any vector y equals the bilinear form of the method at (u, u_t) tested with y, up to the 1e-20 placeholder and the error of the time quadrature of the data term. The sample solution of solve_2d.py is such a wave on every triangulation of the unit square, so the statement applies to solve_2d.py with any number of slabs and any data domain, provided its initial values are set on the object.",
 "all triangulations, continuous elements, orders, numbers of slabs, waves analytic in space, data domains, call histories, test vectors",
 "An identity for all waves, triangulations and test functions; a numerical test only sees rounding-contaminated residuals of one wave on one mesh.",
 [ST+":SpaceTime.get_spacetime_rhs", ST+":SpaceTime.setup_rhs", ST+":SpaceTime.setup_spacetime_matrix", "src/dxss/solve_2d.py"])
add("Triangulations: the matrix is invertible",
 "On any triangulation in the plane, with continuous elements of any order and any orders in time, a vector whose energy vanishes is zero, whatever the data domain; hence the matrix of get_spacetime_matrix is invertible after any calls when the placeholder value 1e-20 is small against a constant of the mesh. For elements up to order 3 that constant is explicit in the shortest and longest edge, the smallest area and the extent of the mesh. For solve_2d.py (elements of order 3 in space and time, 8 slabs) with edges between 1/100 and 1/8 and no triangle of area less than 0.5e-4, the condition holds with eleven orders of magnitude to spare.",
 "all triangulations, orders, numbers of slabs, data domains, weights, call histories",
 "Invertibility for all meshes and data domains; a test sees one matrix up to rounding.",
 [ST+":SpaceTime.get_spacetime_matrix", ST+":SpaceTime.setup_spacetime_matrix", "src/dxss/solve_2d.py"])
add("solve_2d.py reconstructs its wave",
 "For the linear system set up by solve_2d.py on any triangulation of the unit square, measured_errors reports for the solution of the system an error at the final time of at most half the norm of the wave cos(sqrt(2) pi t) sin(pi x) sin(pi y) to be reconstructed. In fact, unless the mesh is extremely fine or degenerate (edges between 1/100 and 1/8 are fine), the reported errors are those reported for the zero vector up to 1e-3 for the function and 2e-2 for its time derivative, namely the norm of the wave (at least 0.08 at the final time, 1/2 as the largest), so nothing is reconstructed. The same holds for the dictionary the whole program computes, with either back end, if the vector GMRes returns solves the system.",
 "all triangulations of the unit square with bounds for edges and areas, data domains, interpolation operators, back ends, call histories, solution vectors",
 "The solution of the system is the unknown of the program; the bound holds for all meshes and data domains. (Violated, as consequence of C35.)",
 ["src/dxss/solve_2d.py", ST+":SpaceTime.measured_errors", ST+":SpaceTime.get_spacetime_rhs"])
add("solve_2d.py with data everywhere reconstructs its wave",
 "Take the problem of solve_2d.py with N <= 1e13 time slabs on a triangulation of the unit square, with the data domain the whole square and not marked as fitted (so that the data enter, see C35). The linear system then has exactly one solution. For a triangulation with longest edge h and h^2 at most rho times twice the area of each triangle, 1 <= rho <= 1000, h <= 1/100 and N >= 100, measured_errors reports for the solution errors of the displacement, at the final time and over time, of at most sqrt(30/N + (205 rho^2 + 27 rho^3) N h^2 + N/4e6) + 2/N^2 + 28 h^2: first order convergence in the number of slabs if the mesh is refined with it, down to the floor caused by the rounded quadrature weights. In particular with 8000 <= N <= 18000 slabs and right angled triangles of size 1/(20 N) the error at the final time is at most 0.62 times the norm of the wave there and the largest error over time at most 0.17 times the norm of the initial value.",
 "all triangulations of the unit square, numbers of slabs, solution vectors, call histories",
 "An error bound with constants for all triangulations and numbers of slabs; the sizes at which it is useful are out of reach of a test.",
 [ST+":SpaceTime.measured_errors", ST+":SpaceTime.get_spacetime_rhs", ST+":SpaceTime.get_spacetime_matrix", "src/dxss/solve_2d.py"])
add("Refined meshes cover the same domain and contain the coarse spaces",
 "Refining a triangulation in the plane with all edges marked, as the mesh builders do, divides every triangle into four of equal area which together are that triangle and overlap in null sets only. The domain and its boundary stay the same. Edges become half as long if no edge of the triangle is shorter than sqrt(1/2) times another one, otherwise at most sqrt(1/2) times as long as the longest edge. Every continuous finite element function of the coarse mesh is one of the same order on the refined mesh, with the same integrals. So the builders for the plane, started from a triangulation of the unit square, return n_ref+1 triangulations of the unit square with 4^i times as many triangles on level i and explicit bounds for edges and areas. For solve_2d.py, which uses level 3: the matrix of get_spacetime_matrix is invertible if the triangles of the initial mesh have area at least 1/1000, and the reported errors are those of the zero vector (C111) for initial meshes of moderate size.",
 "all triangulations, numbers of refinements, orders, data domains, call histories",
 "Statements about all meshes, functions and levels; a test sees one mesh, whose areas and integrals it computes up to rounding.",
 ["src/dxss/meshes.py:get_mesh_data_all_around", "src/dxss/meshes.py:get_mesh_hierarchy", "src/dxss/solve_2d.py", ST+":SpaceTime.get_spacetime_matrix"])
add("The solution of the system fits the data",
 "Let the data be the values of a standing wave, given through a DataDomain which is not marked as fitted (so that they enter, see C35), on any part of the domain. If a vector solves the system of get_spacetime_matrix and get_spacetime_rhs, the function it represents agrees with the data on the data domain: the space-time integral of the squared difference over the data domain is at most 3.3 E/1e4 + 14.3 M + 3e-9 times the final time, where E and M are the (explicit) energy and squared error of the interpolant of the wave. The data domain need not determine the wave. For solve_1d.py with ORDER 1, 2 or 3, N >= 32 slabs and n >= 32 cells, n*N^4 <= 7e11, this is at most 5.6/N^2 + 1/n^2 + 3e-9; with the numbers of the script (32 slabs, 160 cells, data where x <= 0.2) it is at most 15 percent of the squared norm of the data. For solve_2d.py on triangulations with edges at most h <= 1/100 and N >= 100 slabs it is at most 0.35/N^2 + (3.3 rho^2 + 0.31 rho^3) h^2 + 3e-9, where rho bounds h^2 divided by twice the area of a triangle. For solve_3d.py with N >= 100 slabs and k >= 100 cells in each direction (k*N <= 1e16) it is at most 0.075/N^2 + 0.065/k^2 + 1.5e-9.",
 "all meshes, data domains, orders up to 3, numbers of slabs, solution vectors, call histories",
 "A bound for the solution of the system for all data domains and meshes; the misfit is not among the errors the library reports.",
 [ST+":SpaceTime.get_spacetime_matrix", ST+":SpaceTime.get_spacetime_rhs", "src/dxss/solve_1d.py", "src/dxss/solve_2d.py", "src/dxss/solve_3d.py"])
add("solve_1d.py of every ORDER with data everywhere reconstructs its wave",
 "Take the parameters of solve_1d.py with ORDER 1, 2 or 3, but with data on the whole interval through a DataDomain with fitted=False, N slabs and n cells (n >= 100, 100 <= N <= 1e13). The system of get_spacetime_matrix and get_spacetime_rhs has exactly one solution, and the errors L2-u1-T and L-infty-L2-error-u that measured_errors reports for it are at most sqrt(460/N + 28 N/n^2 + N/4e6) + 5/N^2 + 7/n^2. In particular, for 4500 <= N <= 100000 and n >= N the reported error at the final time is at most half the norm of the wave, which is what fails for the script as it is, for each ORDER (C108).",
 "all numbers of slabs and cells in these ranges, orders 1 to 3, solution vectors, call histories",
 "An error bound with constants for all meshes, orders and numbers of slabs; the sizes at which it is useful are out of reach of a test.",
 [ST+":SpaceTime.measured_errors", ST+":SpaceTime.get_spacetime_rhs", ST+":SpaceTime.get_spacetime_matrix", "src/dxss/solve_1d.py"])
add("solve_1d.py fits its data",
 "The solution of the linear system set up by solve_1d.py (160 cells, 32 slabs, ORDER 1, 2 or 3, data where x <= 0.2) fits the data it is given: the space-time integral of the squared difference to the sample solution over x <= 0.2 is at most half of that of the zero function. In fact it is at least 90 percent of it (up to 1e-12), also with 32 to 1000 cells, for every data domain handed over and on every part of the interval; the same program with fitted=False would have at most 15 percent (C114).",
 "all meshes with 32 to 1000 cells, orders 1 to 3, indicator functions, interpolation operators, call histories, solution vectors",
 "The solution of the system is the unknown of the program; the misfit is not reported. (Violated, as consequence of C35.)",
 ["src/dxss/solve_1d.py", ST+":SpaceTime.get_spacetime_rhs", ST+":SpaceTime.get_spacetime_matrix"])
add("Noisy data move the reconstruction by the size of the noise",
 "Build two objects with the same arguments except for the measured solution, without well_posed, and let the two measured solutions differ by at most delta in the norm of L2 over the data domain at each time between 0 and the final time. Let the data, with boundary values and jumps of the gradient, determine the finite element functions with constant c. Then the values of L-infty-L2-error-u that one object's measured_errors reports for a solution of its own system and for a solution of the other one's system differ by at most sqrt(192 c data N) delta (data is the weight of the data, N the number of slabs). In particular, for solve_1d.py with ORDER 1, 2 or 3 and data everywhere as in C115, reconstruction from noisy data has errors, at the final time and over time, of at most the bound of C115 plus 14 sqrt(N) delta. With data everywhere the same holds for every problem whose solution with exact data has a bound for its reported error; for solve_2d.py as in C112 the bound is that of C112 plus 14 sqrt(N) delta, and for solve_3d.py as in C105 that of C105 plus 14 sqrt(N) delta.",
 "all data, noise, spaces, numbers of slabs and orders, solution vectors, call histories",
 "A bound for all noise; a test samples some noise, and the worst one is unknown.",
 [ST+":SpaceTime.measured_errors", ST+":SpaceTime.get_spacetime_rhs", ST+":SpaceTime.get_spacetime_matrix", "src/dxss/solve_1d.py", "src/dxss/solve_2d.py", "src/dxss/solve_3d.py"])
add("The slab systems of the preconditioner have exactly one solution, whatever the data",
 "Without forward jumps and well_posed the matrix of get_slab_matrix() is non-singular (C16). So are the matrix of get_slab_matrix_first_slab(), which has no jump at its lower end, and the whole matrix of get_spacetime_matrix(precond=True), for every data domain (also without data), if a finite element function without boundary values, jumps of the gradient and Laplacian is zero and the placeholder 1e-20 is small against a constant of the discretisation. This holds for solve_1d.py with ORDER 1, 2 or 3 and n cells, N slabs if n*N^4 <= 1e12, for solve_2d.py on triangulations of moderate size (the condition of C110), and for solve_3d.py with k cells in each direction if k*N <= 1e16. So a direct solver for the slabs, as the scripts and the slab tests set it up, does not meet a singular matrix.",
 "all data domains, orders, numbers of slabs, meshes up to these sizes, call histories",
 "Whether a matrix is singular is asked for all meshes, orders and data domains; the slab tests solve two systems.",
 [ST+":SpaceTime.get_slab_matrix", ST+":SpaceTime.get_slab_matrix_first_slab", ST+":SpaceTime.get_spacetime_matrix", "src/dxss/solve_1d.py", "src/dxss/solve_2d.py", "src/dxss/solve_3d.py"])
add("GMRES needs no more steps than there are interface unknowns, for the scripts and whatever the data",
 "Without forward jumps and well_posed, for every data domain (also without data) and elements of every order: let the object be prepared by the documented calls with exact solvers for the two slab matrices, and let r be N-1 times the number of coefficients of the two components of the primal variable at one time. For every right-hand side b the r+1 vectors pre(b), pre(A pre(b)), ... of the improved preconditioner and the matrix-free product span a solution of A x = b; and get_gmres_solution with more than r steps and a restart not below maxsteps returns, if PETSc's GMRES minimises over that space in exact arithmetic. It suffices that a finite element function without boundary values, jumps of the gradient and Laplacian is zero and that 1e-20 N is small against a constant of the discretisation. This holds for solve_1d.py with ORDER 1, 2 or 3 and n cells, N slabs if n*N^5 <= 1e12, for solve_2d.py on triangulations of moderate size, and for solve_3d.py with k cells in each direction if k*N^2 <= 1e16.",
 "all data domains, right-hand sides, orders, numbers of slabs, meshes up to these sizes, call histories, exact slab solvers",
 "A statement on the number of steps for all data domains and right-hand sides; a test counts the steps of one run in rounded arithmetic.",
 [ST+":SpaceTime.pre_time_marching_improved", ST+":SpaceTime.apply_spacetime_matrix", "src/dxss/gmres.py:get_gmres_solution", "src/dxss/solve_1d.py", "src/dxss/solve_2d.py", "src/dxss/solve_3d.py"])
add("solve_2d.py and solve_3d.py fit their data",
 "The solution of the linear system set up by solve_2d.py (on every triangulation of the unit square, with data within 0.2 of its boundary) and by solve_3d.py (16 cells in each direction, 8 slabs, data where x[0] <= 0.25) fits the data it is given: the space-time integral of the squared difference to the sample solution over the data domain is at most half of that of the zero function. In fact it is at least 90 percent of it, up to 1e-10 in two dimensions (on triangulations which are not extremely fine or degenerate) and up to 1e-20 in three (with up to 1000 cells in each direction), for every data domain handed over and on every part of the square or cube; with fitted=False the misfit is small on fine meshes (C114).",
 "all triangulations of moderate size, all numbers of cells up to 1000, indicator functions, interpolation operators, call histories, solution vectors",
 "The solution of the system is the unknown of the program; the misfit is not reported. (Violated, as consequence of C35.)",
 ["src/dxss/solve_2d.py", "src/dxss/solve_3d.py", ST+":SpaceTime.get_spacetime_rhs", ST+":SpaceTime.get_spacetime_matrix"])
add("The forms handed out belong to the matrices and the vector handed out",
 "On every object, after every sequence of calls: the form of get_spacetime_bfi and the matrix of get_spacetime_matrix belong together, in whichever order they are requested, with whichever values of precond (also different ones, and also where C32 fails), and whatever is called in between. That is, testing the product of the matrix with one coefficient vector against another evaluates the form on the two finite element functions. The same holds for get_slab_bfi and get_slab_matrix, for get_slab_bfi_first_slab and get_slab_matrix_first_slab, and for get_spacetime_lfi and the vector of get_spacetime_rhs if setup_rhs() is not called directly in between.",
 "all configurations, call histories before and between the two requests, failures of external calls, flags, coefficient vectors",
 "A statement on pairs of cached values under all call histories and for all pairs of functions; a test compares one pair after one history.",
 [ST+":SpaceTime.get_spacetime_bfi", ST+":SpaceTime.get_spacetime_matrix", ST+":SpaceTime.get_slab_bfi", ST+":SpaceTime.get_slab_matrix", ST+":SpaceTime.get_slab_bfi_first_slab", ST+":SpaceTime.get_slab_matrix_first_slab", ST+":SpaceTime.get_spacetime_lfi", ST+":SpaceTime.get_spacetime_rhs"])
with open("/verif/properties.jsonl","w") as f:
    for p in P: f.write(json.dumps(p)+"\n")
print(len(P))
