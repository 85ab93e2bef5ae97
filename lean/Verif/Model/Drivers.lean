import Verif.Model.History

/-!
# The solver scripts (solve_1d.py, solve_2d.py, solve_3d.py) and `get_sparse_matrix`
-/

namespace Dxss

/-! ### CSR matrices -/

/-- An assembled PETSc matrix as returned by `getValuesCSR()` (with its sizes). -/
structure PCsr where
  rows : ℕ
  cols : ℕ
  ptr : List ℕ        -- ai
  col : List ℕ        -- aj
  val : List ℝ        -- av

/-- Entry `(i, j)` of a matrix stored in CSR format (duplicates are added). -/
def csrEntry (ptr col : List ℕ) (val : List ℝ) (i j : ℕ) : ℝ :=
  ∑ k ∈ Finset.Ico (ptr.getD i 0) (ptr.getD (i + 1) 0), if col.getD k 0 = j then val.getD k 0 else 0

/-- What PETSc guarantees about the three arrays. -/
structure PCsr.Ok (A : PCsr) : Prop where
  ptr_len : A.ptr.length = A.rows + 1
  ptr_zero : A.ptr.getD 0 0 = 0
  ptr_mono : ∀ i < A.rows, A.ptr.getD i 0 ≤ A.ptr.getD (i + 1) 0
  ptr_last : A.ptr.getD A.rows 0 = A.col.length
  val_len : A.val.length = A.col.length
  col_lt : ∀ c ∈ A.col, c < A.cols

/-- A `scipy.sparse.csr_matrix`. -/
structure SCsr where
  rows : ℕ
  cols : ℕ
  ptr : List ℕ
  col : List ℕ
  val : List ℝ

/-- `scipy.sparse.csr_matrix((data, indices, indptr))` without `shape`: the shape is inferred, and the
format is checked. -/
def csrMatrix (val : List ℝ) (col ptr : List ℕ) : Py SCsr :=
  match col.max? with
  | none => .error .valueError          -- unable to infer matrix dimensions
  | some m =>
    if ptr.getD 0 0 ≠ 0 ∨ val.length ≠ col.length ∨ ptr.length = 0 ∨ col.length < ptr.getD (ptr.length - 1) 0
    then .error .valueError
    else .ok { rows := ptr.length - 1, cols := m + 1, ptr := ptr, col := col, val := val }

/-- `get_sparse_matrix(mat)`, space_time.py:68-70 -/
def getSparseMatrix (A : PCsr) : Py SCsr := csrMatrix A.val A.col A.ptr

/-! ### Back ends -/

/-- The linear algebra used by the scripts: CSR arrays of an assembled matrix, LU with PETSc (`KSP` of type
`PREONLY` with `PC` of type `LU`), and a Pardiso call with a factorised matrix. -/
structure Backend where
  csr : Mat → PCsr
  lu : Mat → Solver
  pardiso : SCsr → Vec → Py Vec

/-- `_check_A` of pypardiso: only square matrices are accepted. -/
def checkA (A : SCsr) : Py Unit := if A.rows = A.cols then .ok () else .error .valueError

/-- `PySolver(Asp, psolver).solve(b_inp, x_out)`, solve_1d.py:44-58, solve_2d.py:43-57, solve_3d.py:47-61. -/
def pySolver (B : Backend) (A : SCsr) : Solver := fun b x =>
  match checkA A with
  | .error e => (.error e, x)
  | .ok () => match B.pardiso A b with
    | .error e => (.error e, x)
    | .ok u => (.ok (), u)

/-- `SOLVER_TYPE`, solve_1d.py:23-29, solve_2d.py:22-28, solve_3d.py:24-30. -/
def solverType (pypardisoImportable : Bool) : String :=
  if pypardisoImportable then "pypardiso" else "petsc-LU"

/-- The branches of `solve_problem`. -/
inductive Branch
  | pypardiso
  | petscLU
  | direct
  deriving DecidableEq

/-- The tests `if SOLVER_TYPE == "pypardiso"`, `elif SOLVER_TYPE == "petsc-LU"`, `else`:
solve_1d.py:131, 156, 169; solve_2d.py:134, 158, 171; solve_3d.py:197, 223, 236. -/
def branchOf (s : String) : Branch :=
  if s = "pypardiso" then .pypardiso else if s = "petsc-LU" then .petscLU else .direct

/-! ### The iteration inside `get_gmres_solution`, as seen by the object -/

/-- What PETSc does during a solve: it calls the shell matrix and the shell preconditioner on vectors it
owns (or on the right-hand side), and computes with its own vectors. -/
inductive KCall
  | mult (x : InVec) (y : ℕ)
  | pc (b : InVec) (x : ℕ)
  | write (k : ℕ) (v : Vec)

variable {V : Type} [AddCommGroup V] [Module ℝ V] (C : Cfg V)

def runK : KCall → WM V Unit
  | .mult x y => applySpacetimeMatrix C x.ref (.user y)
  | .pc b x => preTimeMarchingImproved C b.ref (.user x)
  | .write k v => setVec (.user k) v

/-- One possible course of the iteration: the calls made, the converged reason, and the vector holding the
solution. -/
structure Krylov where
  calls : List KCall
  reason : ℤ
  sol : ℕ

/-- `get_gmres_solution(A=SpaceTimePETScMatrixWrapper(ST), b=b_rhs, pre=SpaceTimePETScPreconditionerWrapper(ST),
…)` as seen by the object (see `Gmres.getGmresSolution` for its configuration); exceptions of the
wrappers and a negative reason reach the caller. -/
def gmres (K : Krylov) : WM V Ref := do
  M.forList K.calls (runK C)
  if K.reason < 0 then M.raise .petscError
  return .user K.sol

/-- Which of the three scripts. -/
inductive Script
  | d1 | d2 | d3
  deriving DecidableEq

/-- The statements at module level: solve_1d.py:119-121, solve_2d.py:125-127, solve_3d.py:188-190. -/
noncomputable def scriptSetup : WM V Ref := do
  setupFE C
  prepareGmres C
  getSpacetimeRhs C

/-- A slab matrix must not be `None` to be passed on. -/
def needMat (A : Option Mat) : WM V Mat := M.lift (match A with
  | some A => .ok A
  | none => .error .attributeError)

/-- `get_sparse_matrix`, `factorize`, `PySolver(…)` -/
def pardisoSolver (B : Backend) (A : Mat) : Py Solver := do
  let S ← getSparseMatrix (B.csr A)
  checkA S
  return pySolver B S

/-- The vector returned by `createVecs()` in the direct branch. -/
def directVec : ℕ := 0

/-- Lines solve_1d.py:169-173 (solve_2d.py:171-175, solve_3d.py:236-240), `KSP.solve(b, x)`. -/
noncomputable def directBranch (B : Backend) (bRhs : Ref) : WM V Ref := do
  let A ← getSpacetimeMatrix C false
  ext                                               -- createVecs
  setVec (.user directVec) 0
  let u ← getVec (.user directVec)
  let b ← getVec bRhs
  let (res, x) := B.lu A u b                        -- solver_space_time.solve(u_sol, b_rhs)
  setVec bRhs x
  M.lift res
  return .user directVec

/-- `u_sol` of `solve_problem`: solve_1d.py:131-173, solve_2d.py:134-175, solve_3d.py:197-240.
`plot_error` (solve_1d.py:155) is an external call here; its tables are the subject of C43. -/
noncomputable def computeSol (sc : Script) (B : Backend) (K : Krylov) (type : String) (bRhs : Ref) : WM V Ref :=
  match branchOf type with
  | .pypardiso => do
    let A ← getSlabMatrix C
    let A ← needMat A
    let s ← M.lift (pardisoSolver B A)
    setSolverSlab s
    let A ← getSlabMatrixFirst
    let A ← needMat A
    let s ← M.lift (pardisoSolver B A)
    setSolverFirst s
    let u ← gmres C K
    if sc = .d1 then ext
    return u
  | .petscLU => do
    let A ← getSlabMatrix C
    let A ← needMat A
    setSolverSlab (B.lu A)
    let A ← getSlabMatrixFirst
    let A ← needMat A
    setSolverFirst (B.lu A)
    gmres C K
  | .direct => directBranch C B bRhs

/-- `solve_problem(measure_errors)`: solve_1d.py:129-179, solve_2d.py:132-181, solve_3d.py:195-247. -/
noncomputable def solveProblem (sc : Script) (B : Backend) (K : Krylov) (type : String) (bRhs : Ref)
    (measure : Bool) : WM V (Ref × Option ErrDict) := do
  let u ← computeSol C sc B K type bRhs
  if measure then
    if sc = .d3 then plotParaView C u
    let e ← measuredErrors C u
    return (u, some e)
  else return (u, none)

/-- A script run as a program. -/
noncomputable def runScript (sc : Script) (B : Backend) (K : Krylov) (pypardisoImportable : Bool) :
    WM V (Ref × Option ErrDict) := do
  let b ← scriptSetup C
  solveProblem C sc B K (solverType pypardisoImportable) b true

end Dxss
