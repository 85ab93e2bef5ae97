# Design: a Lean 4 model of UCL/dxss

Source modelled: `/repo/src/dxss/*.py` at the pinned commit. The code is read as text; it is
never built or run. Lean project: `/verif/lean`.

## Layout

* `Verif/Model/*.lean` – the model. One definition per Python function or code
  fragment; each carries a comment citing file and lines and naming simplifications.
* `Verif/Spec/*.lean` – small specifications, written without the model's helpers.
* `Verif/Lemmas/*.lean` – helper lemmas.
* `Verif/Props/*.lean` – the property theorems, named `C01_…`, `C02_…`, specifications
  which belong to one property only, and the non-vacuity `example`s beside them.
* `properties.jsonl` (the properties), `MANIFEST.json` (their status and theorems),
  `AXIOMS.md` (axioms of each theorem), `seeded/LOG.jsonl` (edits of the model
  made to test the theorems). The first two are written by `tools/props.py` and
  `tools/manifest.py`, the third by `tools/axioms.py`.

## Conventions of the model

* **Numbers.** Python floats are exact reals (`ℝ`); the tables in
  `precomp_time_int.py` and the output of sympy's `integrate` are exact rationals
  (`ℚ`). Rounding is modelled in `Float` (C76) and nowhere else. Decimal constants (e.g. the six-digit
  Gauss-Radau points) are taken literally, so their truncation error *is* part of
  the model and of the theorems (C09, C64, C70, C71).
* **Exceptions** are values (`PyErr`); pure functions return `Py α = Except PyErr α`.
  Imperative methods are computations `M σ α = σ → Py α × σ`: the state reached when
  an exception is raised is kept, as in Python.
* **External calls** (form compilation, assembly, allocation) may raise: the world
  carries a schedule saying which external call fails, and a clock. `World.NoFail` is
  the case in which none does. Theorems quantify over all schedules unless they say
  `NoFail`.
* **sympy** (`Model/Poly`). Polynomials are coefficient lists over `ℚ`, with product,
  derivative and integral over [0,1] defined structurally; it is proved that these agree
  with the true derivative and interval integral.
* **UFL forms** (`Model/Forms`). `setup_spacetime_matrix`, `setup_slab_matrix`, … are
  transcribed loop by loop into functions producing lists of terms
  `coef * op(trial operand, test operand)`, `op` ranging over the spatial integrands
  that occur in the code. Loop counters (`int_idx_q`, `coupling_idx_q`, …) are carried
  as integers through a fold exactly as in the code. `evalForm`, `evalLin` evaluate
  such lists on fields (component, index ↦ function).
* **Space.** Everything DOLFINx does in space is a parameter `Space V` over an arbitrary
  real vector space `V` of functions: the bilinear forms behind the integrands (mass,
  stiffness, boundary flux, boundary penalty, facet jump, h²-weighted, data domain), the
  element-wise Laplacian, the constant one, and their symmetry. Theorems quantify over
  all of them. Further facts are explicit hypotheses: `Space.Psd` (semidefinite forms),
  `Space.Definite` (definite mass), `FE.Indep` (independent basis functions).
* **Discretisation.** `Disc V` holds what the constructor derives (orders, number of
  slabs, step, weights, flags, indicator, solution). `Disc.Ok`: the element matrices
  are those of the orders, the step is not zero. `Disc.Positive`: positive weights.
* **Dof numbering.** `FSpace` gives, for each mixed space, the size and all collapsed
  dof maps; `FSpace.Ok` says they number the dofs bijectively. Nothing else is assumed
  about the numbering. `Cfg V` puts all spaces of one object together (`Cfg.Ok`).
* **Matrices** are the Galerkin matrices of the forms; `assemble` is defined entrywise,
  `mult` is the ordinary product.
* **Vectors** are functions from indices to reals in a heap indexed by references, so
  aliasing of arguments is expressible. numpy fancy indexing is gather / ordered scatter.
  They carry no length except in `Parallel*`: a product with a work vector of another size, e.g. after a coarse
  mesh was changed by a failing call (C86), is not described.
* **The `SpaceTime` object** (`Obj V`) has an `Option` field for each attribute that is
  `None` (or missing) before it is set up. `World V` is the object, the heap, and the
  schedule. `Op V` lists the public calls and the caller's own writes (into their vectors,
  the initial data and the solvers), `runOps` runs a history of them. Not in `Op`: the
  caller writing into the vector returned by `get_spacetime_rhs`; what that does is C96 and C97.
* **Slab solvers** are functions from contents of both arguments to an outcome and the
  new content of the second, also when they raise.

## What each model file covers

| file | code |
|------|------|
| `Poly`, `TimeBasis` | precomp_time_int.py, all of it |
| `Forms` | space_time.py 342-700, 730-790, 804-1100, 1186-1230: all forms |
| `Interval` | the spatial integrands of those forms written out on meshes of an interval (solve_1d.py); integrals over cells are exact, also those of the sample solution, for which DOLFINx uses a quadrature rule |
| `Grid` | the same on grids of axis-parallel boxes in any number of dimensions (solve_3d.py: `create_box` with hexahedra), with the multilinear elements; a facet is parametrised by the other coordinates, the cell diameter is the diagonal |
| `Tri` | the same on triangulations in the plane (solve_2d.py) with elements of any order; the data are vertices and, for every edge, the edge of the neighbour; integrals over triangles and edges are exact; the cell diameter is the longest edge |
| `TriRefine` | meshes.py 220-227, 310-318, 421-429, 850-864: `refine` with all edges; how a triangle is divided is DOLFINx's (joining midpoints, or bisecting the longest edge in slim triangles); numbers of the new triangles are those of the model |
| `StabDict` | the look-ups in `stabilisation_terms` (372-375, 735-736, 810, 848, 884-887, 1196, 1273) as the code makes them, and a caller who changes the dictionary; elsewhere the four values are part of the configuration |
| `SharedDomain` | several objects which refer to one `DataDomain` (119, 147-152; reads at 365, 369, 757, 926), and a caller who changes its indicator |
| `Assembly` | meaning of DOLFINx spaces, assembly and products |
| `Construct` | space_time.py 30-64, 87-249: argument classes and constructor |
| `SpaceTime` | space_time.py 251-340, 709-1342: set-up methods, caches, matrix-free product, both preconditioners |
| `Coarse` | space_time.py 1343-1451: coarse-grid correction, two-level preconditioner |
| `Errors`, `ParaView` | space_time.py 1452-1866: error measurement, plot tables, files |
| `Parallel` | the same array accesses and the assembly of the right-hand side on several MPI ranks |
| `ParallelPre` | the array accesses of `pre_time_marching_improved` on a rank |
| `Float` | space_time.py 117, 224, 1480, 1522: slab boundaries and sample times in binary64 arithmetic |
| `History` | public calls and call histories |
| `Gmres` | gmres.py, all of it; PETSc is a parameter `Petsc` |
| `Drivers` | solve_1d/2d/3d.py: solver set-up, back ends, branches; `get_sparse_matrix` |
| `Scripts` | solve_1d/2d/3d.py: constants, sample solutions, constructor arguments |
| `Indicators` | the indicator functions of the scripts |
| `Meshes` | meshes.py: refinement loops, version switch, node reordering, groups, geometry |
| `Regions` | meshes.py: the planar surfaces as sets, their centres of mass as integrals |
| `Fitted` | the meshes of the scripts and interpolation into cell-wise constants |
| `MeshFiles` | meshes.py: order of file accesses by several processes, as an interleaving model |

## Hypotheses that stand for libraries

* Collapsed dof maps of DOLFINx are bijective numberings (`FSpace.Ok`), in the same
  order of the scalar dofs for every sub-component.
* `Petsc`: `solve` is an arbitrary function of configuration, options and right-hand
  side; `BuildsResidual`, `TestsConvergence` (used where stated) say that PETSc returns the
  true residual and that a positive reason means one of the tolerances holds; `ExactGmres` (C84) is the minimal
  residual property of GMRES without rounding. `setTolerances`, `setRestart`
  and the options refuse exactly the values PETSc refuses.
* `MeshLib`: an arbitrary mesh library with refinement of marked edges.
* `WaveSolution` (C64, C65, C71): an exact solution is a path in `V` with the integrals
  it needs and, at every time, the weak wave equation tested with the dual finite element functions; smoothness is
  inside that hypothesis.
  C71 bounds the boundary flux through a function `G` with `nit(v,y)² ≤ G(v)·pen(y,y)`.
  C89 takes a bilinear form for `G`, and `SmoothPath` (coefficients in the finite element basis with `q+1` derivatives).
* `Cfg.Observable C K` (C68, C70, C71, C78, C79): a state is determined by the stability energy
  with constant `K`. It is *proved* from initial values, or from data, boundary penalty and gradient jumps that
  together determine the finite element functions (`Cfg.Determined`), in C68.
* `Rank.Ok` (C73–C75): on a rank, dof maps contain owned dofs first, then ghosts; `Vec.array` has
  the owned entries; `assemble_vector` integrates over the cells of the rank (`Mesh.Of`).
* `Evaluates`, `FE.Nodal` (C72): interpolation takes values at the nodes of a nodal basis.
* `Tri.Tiles`, `Tri.BdSquare`, `Tri.Bounds` (C109–C112): the triangles tile the unit square, edges without neighbour lie on its
  boundary, and bounds for edges, areas and extent; they stand for the mesh gmsh produces and are proved for k×k squares cut along their diagonals (`Tri.squares`).

## Trusted base

* Lean 4.33.0's kernel and Mathlib. The only axioms used are `propext`,
  `Classical.choice`, `Quot.sound`; `AXIOMS.md` lists them per theorem. There are no
  axioms of our own, no `sorry`, no `native_decide`, no `bv_decide`.
* The reading of the Python code by the author of the model.
* For DOLFINx, UFL, PETSc, gmsh, meshio, numpy, scipy, Pardiso: the contracts stated above and
  in the comments of the model definitions.

## Not modelled

Floating-point rounding (except C76); performance and memory; matplotlib drawing (the tables handed
to it are modelled); the bodies of external libraries; printing, except where it
decides between branches; gmsh's meshing (only the calls made and the groups defined).

## Findings: properties the code violates

Each is kept in `properties.jsonl` with its full statement (`Cxx_statement` in Lean), a
proof of its negation from a concrete witness, and the strongest positive part
(`…_partial`).

| id | finding |
|----|---------|
| C18 | the matrix-free product omits the initial-data terms (`well_posed`) and the forward-jump terms of the assembled matrix |
| C28 | after an early `get_slab_matrix()` the preconditioner's work vector is never allocated; every application raises `AttributeError` |
| C29 | with `well_posed=True` preparation does not build the jump-free slab matrix; the matrix-free product raises |
| C32 | the cache of `get_spacetime_matrix` ignores `precond`: the wrong matrix is returned after a request with the other flag |
| C33 | with `well_posed=True`, `measured_errors` and `plot_para_view` overwrite the initial data used by a later right-hand side |
| C34 | three allocations after the guarding attribute is set cannot be retried after a failure |
| C35 | with `fitted=True` (default) the indicator is replaced by a zero function before it is interpolated: the data term vanishes |
| C39 | `pre_twolvl` always raises `AttributeError` |
| C47 | the direct branch of the scripts calls `solve` with swapped arguments: it returns zero and overwrites the right-hand side |
| C50 | the test for sequential node numbers is inverted: the builders without files always refuse |
| C57 | three builders raise `TypeError` with DOLFINx 0.7 |
| C58 | with several processes the facet-tag file may be overwritten while it is still read |
| C59 | two blocks of the fitted-disc mesh overlap for every `eta` |
| C60 | in `get_mesh_inclusion` the boundary group is selected with the test of another domain |
| C66 | consequence of C35: the right-hand side of every script is the placeholder alone |
| C69 | the start time `t` is stored and never used |
| C73 | in parallel: the owned part of a vector is assigned to an array with owned and ghost entries; error measurement and plots raise `ValueError` on every rank with ghosts |
| C74 | in parallel: the matrix-free product indexes owned entries with dof maps that contain ghosts: `IndexError` |
| C75 | in parallel: no `ghostUpdate` after `assemble_vector`; entries lack the integrals over other ranks' cells |
| C76 | in double precision the last slab can end before the final time (T=1, N=6): `measured_errors` then skips that sample and the reported maximum may be smaller than the reported error at the final time |
| C81 | `get_mesh_hierarchy_nonconvex` exchanges the markers of the target domain and the rest |
| C83 | in parallel: `IndexError` in the time-marching preconditioner, as C74 |
| C86 | if the assembly of the coarse matrix fails, prolongation and restriction already belong to the new mesh while the old matrix is handed out |
| C87 | as C34, seen through calls: after a failed allocation and a repeated preparation a later call raises |
| C88 | a failing second assembly in `get_slab_matrix`/`get_slab_bfi` leaves the matrix cached: the repeated request returns, but with `well_posed=True` the matrix-free product raises for ever |
| C91 | with forward jumps the slab matrices of `pre_time_marching` lack the adjoint interface terms of the space-time matrix; it solves another system than `get_spacetime_matrix(precond=True)` |
| C93 | consequence of C35 and C66: solve_1d.py reports the errors of the zero function (100 %) |
| C97 | `get_spacetime_rhs` hands out its cached vector: in-place changes by the caller are returned by later requests |
| C99 | operators built before a change of the dictionary `stabilisation_terms` keep the old values, those built later use the new ones: slab matrices and interface matrices of one object can belong to different parameters |
| C101 | with `fitted=True` the constructor resets the indicator in the `DataDomain` it shares with other objects: an indicator assigned to repair C35 is lost when another object is constructed with the same domain |
| C103 | consequence of C35 and C66: solve_3d.py reports the errors of the zero vector (100 %) |
| C108 | the same for solve_1d.py with `ORDER` 2 or 3: the reported errors are those of the zero function |
| C111 | the same for solve_2d.py on any triangulation of the unit square that is not extremely fine or degenerate: the reported errors are those of the zero vector |
| C116 | consequence of C35: the solution of solve_1d.py's system does not fit the data; the misfit is that of the zero function |
| C120 | consequence of C35: the same for solve_2d.py and solve_3d.py |

Smaller observations: options a user set in the PETSc database for three GMRES keys are
overwritten and stay overwritten (C45); `restart=0` is passed on and refused by PETSc
(C45); `get_mesh_inclusion_square` refers to an undefined name.

## Plan per property

| id | model | proof |
|----|-------|-------|
| C01 C02 | `basisInTime` (lambda tables) | finite case split on q, `ring` / `HasDerivAt` |
| C03 | `getElmatTime` on coefficient-list polynomials | list integral = interval integral (general lemma), agreement of the two tables |
| C04 C05 | same | quadratic form = integral of a square; fundamental theorem of calculus |
| C06 | guard in the form builders | complete finite table over q, qstar, lifted to the forms |
| C07 C08 C09 | `QuadRule` over ℝ with `Real.sqrt` | exactness on monomials of the reference interval + affine lift; rational bounds |
| C10 | `thetaRef`, `dThetaRef` loops | `ring`, `HasDerivAt` |
| C11 | form builders | induction over the slab loop (closed form of the counters) |
| C12 | form builders vs `Spec` integral form | linearity of integral, C03, induction over slabs |
| C13 C14 | same | corollaries of C12 |
| C15 C16 C61 C62 | same | energy argument, per-slab polynomial argument, induction over slabs; kernel trivial ⇒ unique solution |
| C17 C18 C19 | `applySpacetimeMatrix` on heaps | loop invariant: pairing with an arbitrary test vector |
| C20–C26 | `preTimeMarching(Improved)` | loop invariants over slabs |
| C27–C36 | object model, operations, histories | invariants by induction over operation lists; schedule of failing external calls |
| C37–C39 C77 | `prolongation`, `restriction`, `qOp`, `preTwolvl` | loop invariants |
| C40–C43, C72 | `measuredErrors`, `plot` sampling, files | calculus on the time basis, list induction |
| C44–C48 | `gmres`, scripts, CSR | case analysis, list induction |
| C49–C60 | mesh helper logic | list induction, interleaving model with invariants, linear arithmetic |
| C63–C65 | right-hand side | induction over slabs and quadrature points; C12; integration by parts in time |
| C66–C67 | script data | construct_run, calculus |
| C68 | object model | energy + observability; explicit constants |
| C69 | right-hand side | locality of the load functional |
| C70–C71 | computed solutions | energy identity, Young's inequality, quadrature constants on cubics |
| C78 | preconditioner with the matrices handed out | object invariants, C20; kernel of the one-slab problem from C68 |
| C81 | `fragment` on sets | areas and moments of rectangles (Fubini), case list |
| C82 | grids, cells of the fragmented square | a grid line does not separate points of an open cell |
| C74 C83 | arrays with lengths, dof maps with ghosts | each loop returns or raises according to the range of its indices; simulation of the sequential model |
| C80 | all calls | a vector is kept by each computation that does not write it |
| C11–C14, C17–C26, C42, C43, C72 in terms of calls | `Props/PublicApi` | the theorems above with the object invariants of any history |
| C31–C33 in terms of the variational form and the data functional | `Props/RequestsApi` | the theorems of `Requests` with the matrices tested against functions |
| C33 after another `setup_spacetime_finite_elements` | `Props/InitialData` | the initial data is reset to what the last set-up and later writes put there |
| C79 | GMRES result | bounded inverse in finite dimensions, C14, C17, C20, C44, C71 |
| C85 | coarse-grid calls in any history | C37, C38 with the object invariants of any history, stated on functions |
| C86 | failing `prepare_coarse_grid_correction` | case analysis of the four external operations from any state of the history |
| C87 | failing preparation | a similarity relation on worlds kept by every call (`Lemmas/Similar`) |
| C88 | failing requests | computations that change nothing when they fail (`NoTrace`); an invariant of the half-built state kept by every call |
| C89 | refined time meshes | interpolation error by repeated Rolle, coefficients in the basis, C71; jumps of the interpolant vanish |
| C90 | reported errors on refined time meshes | node values controlled by the slab energy (explicit 3-point Gauss mass matrices for q = 1, 2, 3), then C89 and the reconstruction of C46 |
| C91 | `pre_time_marching` with forward jumps | slab matrices and loads pushed to the full space and compared with the space-time form term by term; any vector is reached from a suitable right-hand side |
| C92 | `Mesh1.space` (Model/Interval) | a linear function is controlled by its end values; the jumps of the gradient move the slope from cell to cell; then C68 |
| C93 | solve_1d.py | energy of the placeholder, differences of two reports (`Lemmas/ReportDiff`), the report of the zero vector by calculus |
| C94 | `Mesh1.space`, `rhsVecOf` | Green's formula cell by cell, telescoping fluxes at the nodes (`Lemmas/Sine1`); then C64 |
| C95 | solve_1d.py, data everywhere | nodal interpolant of the wave in space and time (`Lemmas/LinInterp`, `Lemmas/Dist1`), explicit constants in C71, control by the data |
| C96 | `runOp` | two runs which agree up to one vector (`Lemmas/Blind`), statement by statement |
| C97 | `getSpacetimeRhs`, `setupRhs` | while the right-hand side is set up no call but `setup_rhs` writes its vector |
| C98 | `Dict.*` (Model/StabDict) | look-ups of a complete dictionary cancel; otherwise the first missing one ends the call before it does anything |
| C99 | `runDictOps` | an invariant "built with the entries at some moment" through all calls; entry of the slab matrix which is linear in the jump parameter |
| C100 | `runOp`, `plotTables` | both runs side by side: a relation of states (tables, matrices and solvers conjugated by permutations) kept by every step; any two admissible numberings differ by permutations |
| C101 | `runDomOps` | steps on other objects leave the domain alone unless they construct with a fitted domain and a non-zero indicator; calls that read no indicator; entry of the slab matrix which is linear in the indicator |
| C102 | `Grid.space` (Model/Grid) | Fubini along one axis: on every line the function is piecewise linear and `linear_control_sq` applies to it; then C68 |
| C103 | solve_3d.py | as C93, compared with the report of the zero vector; integrals of products |
| C104 | `Grid.space`, `rhsVecOf` | Green's formula: Fubini along each axis, on every line the one-dimensional formula of `Lemmas/Sine1` (`Lemmas/GridGreen`); then C64 |
| C105 | solve_3d.py, data everywhere | standing waves on any domain (`Lemmas/StandingWave`) as in C95; values in a slab bounded by the integral over the slab with Legendre polynomials (`Lemmas/SupSlab`); product of the interpolants of the sines, product rule, Cauchy–Schwarz on the boundary facets (`Lemmas/GridInterp`, `Lemmas/SineBox`) |
| C106 | any order, `Mesh1.space`, `Grid.space` | zero energy makes the residual of the wave equation vanish pointwise in time (`Lemmas/TimePoly`); the top time coefficients then vanish one after the other by the elliptic problem; compactness of the sphere for the constant (`Lemmas/Quadratic`); Green's formula on grids (`Lemmas/GridElliptic`) |
| C107 | solve_1d.py, any `ORDER` | the chain of C106 with constants: Legendre coefficients on a slab (`Lemmas/Legendre`), elliptic estimate on an interval (`Lemmas/Elliptic1`), Lagrange elements of order k (`Lemmas/Pk`); then C68 |
| C108 | solve_1d.py, `ORDER` 1-3 | as C93 with the energy bound of C107 (`report_diff_of`) |
| C109 | `Tri.space`, `rhsVecOf` | Green's formula on a triangle from the fundamental theorem of calculus on the reference triangle; fluxes of neighbours cancel (`Lemmas/TriInt`, `Lemmas/TriGreen`); then C64 |
| C110 | `Tri.space` | integrals over triangles are Lebesgue integrals by change of variables (`Lemmas/TriVolume`); Green's formula tested with the function itself; inverse estimates for cubic polynomials on an edge (`Lemmas/TriInverse`), Poincaré's inequality with x² as auxiliary function (`Lemmas/TriElliptic`); then C106, C107 |
| C111 | solve_2d.py | as C108; integrals of the sine products from the tiling of the square |
| C112 | solve_2d.py with data everywhere | as C105; piecewise linear interpolation of the sine product on the triangles, bounds for its jumps and fluxes |
| C113 | `Tri.refine`, `hierarchy` | parts of the reference triangle; images of null sets; induction over the levels |
| C114 | solution and data | the energy bound of C105 for any data domain (`Lemmas/StandingEnergy`) with the observability constants of C107 and C110; the data term of the energy is the misfit |
| C115 | solve_1d.py with data everywhere, `ORDER` 1-3 | C105 with the interval interpolant (`Lemmas/Mode1`) |
| C116 | solve_1d.py, `ORDER` 1-3 | the solution is negligible (C108); weighted triangle inequality |
| C117 | noise in the data | C70, positive quadrature weights, sup bound of `Lemmas/SupSlab`; C115, C112, C105 for the clean data |
| C118 | slab systems | the problem of the first slab is a problem with one slab: observability constants of C106, C107, C68 for it; then C78 |
| C119 | GMRES steps for the scripts | constants of C107 and C68 at the beginning of every slab (Cfg.ObservableAll); slab systems by C118; then C84 |
| C120 | solve_2d.py and solve_3d.py | the solution is negligible (C111, C103); weighted triangle inequality as for C116; for the violation the norm of the data is bounded below on one cell of the data domain |
| C121 | forms and matrices handed out | invariant of call histories (`Inv`, `Keep`); assembly evaluates the form on the basis functions |
| C84 | GMRES steps | product and preconditioner differ in the rows at the slab ends; Cayley–Hamilton on the range of the difference; energy argument for the product |
| C73–C75 | arrays with bounds on one rank of several | a two-outcome logic (returns in `Q` / `IndexError`) through the loops; simulation of the model with total functions; sum over cells |
| C76 | `fl`: round to nearest even on ℚ | relative error bound of `fl`, exactness on dyadic numbers, one computed witness |
