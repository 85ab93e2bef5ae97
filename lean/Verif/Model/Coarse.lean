import Verif.Model.SpaceTime

/-!
# Coarse-grid correction of the `SpaceTime` object
-/

namespace Dxss
variable {V : Type} [AddCommGroup V] [Module ℝ V] (C : Cfg V)

/-- `a[:] = v` for an array `a` of length `m`: the lengths must agree unless `v` has length one. -/
def npFill (m : ℕ) (v : List ℝ) : Py Vec :=
  if v.length = m then .ok fun s => v.getD s 0
  else match v with
    | [x] => .ok fun _ => x
    | _ => .error .valueError

/-- The matrix of `setup_spacetime_matrix(self.fes_coarse, precond=False)`, space_time.py:354-369,
1385-1388: same form, integrals and interpolated indicator of the coarse mesh. -/
noncomputable def coarseMatOf (K : CoarseMesh V) : Mat :=
  assemble K.S (K.indOf C.D.ind) K.fe K.full (C.D.stForm false)

/-- `prepare_coarse_grid_correction(msh_coarse)`, space_time.py:1343-1396.  `create_vector(None)`
(1390) raises when no right-hand side has been set up. -/
noncomputable def prepareCoarse (K : CoarseMesh V) : WM V Unit := do
  ext
  modObj fun o => { o with coarseMaps := some (buildDofmapsFull C.D K.full) }
  let _ ← M.attr (fun w => w.obj.dofmaps)
  modObj fun o => { o with coarseNode := some K }
  setVec .uNodeFine 0
  setVec .uNodeCoarse 0
  ext
  modObj fun o => { o with coarseMat := some (coarseMatOf C K) }
  let _ ← M.attr (fun w => w.obj.lfi)
  ext
  modObj fun o => { o with fineTmps := some () }
  M.forList [1, 2, 3, 4, 5, 6] fun j => setVec (.tmp j) 0
  ext
  modObj fun o => { o with coarseTmps := some () }
  setVec .tmp1Coarse 0
  setVec .tmp2Coarse 0

/-- space_time.py:1398-1402 -/
def getSpacetimeMatrixCoarse : WM V (Option Mat) := fun w => (.ok w.obj.coarseMat, w)
def setSolverCoarse (s : Solver) : WM V Unit := modObj fun o => { o with solverCoarse := some s }

/-- `prolongation(x_coarse, x_fine)`, space_time.py:1404-1419.  The interpolation itself is assumed
not to raise. -/
def prolongation (xc xf : Ref) : WM V Unit :=
  slabForM C.D.q C.D.qstar C.D.N fun c _ => blockLoop C.D c fun j i _ => do
    let cm ← M.attr (fun w => w.obj.coarseMaps) .typeError
    let idx ← M.lift (pyIdx (cm j) i)
    let x ← getVec xc
    let K ← M.attr (fun w => w.obj.coarseNode)
    let a ← M.lift (npFill K.fe.mP (idx.map x))
    setVec .uNodeCoarse a
    setVec .uNodeFine (K.toFine a)
    let f ← getVec .uNodeFine
    let dm ← M.attr (fun w => w.obj.dofmaps) .typeError
    let idx' ← M.lift (pyIdx (dm.full j) i)
    let y ← getVec xf
    let y' ← M.lift (npAssign y idx' ((List.range C.fe.mP).map f))
    setVec xf y'

/-- `restriction(x_coarse, x_fine)`, space_time.py:1421-1436. -/
def restriction (xc xf : Ref) : WM V Unit :=
  slabForM C.D.q C.D.qstar C.D.N fun c _ => blockLoop C.D c fun j i _ => do
    let dm ← M.attr (fun w => w.obj.dofmaps) .typeError
    let idx' ← M.lift (pyIdx (dm.full j) i)
    let y ← getVec xf
    let K ← M.attr (fun w => w.obj.coarseNode)
    let a ← M.lift (npFill C.fe.mP (idx'.map y))
    setVec .uNodeFine a
    setVec .uNodeCoarse (K.toCoarse a)
    let f ← getVec .uNodeCoarse
    let cm ← M.attr (fun w => w.obj.coarseMaps) .typeError
    let idx ← M.lift (pyIdx (cm j) i)
    let x ← getVec xc
    let x' ← M.lift (npAssign x idx ((List.range K.fe.mP).map f))
    setVec xc x'

/-- `q_op(x_in, x_out)`, space_time.py:1438-1441.  The check that `tmp1_coarse` exists is made at the
start instead of at the first access inside `restriction`. -/
def qOp (xin xout : Ref) : WM V Unit := do
  let _ ← M.attr (fun w => w.obj.coarseTmps)
  restriction C .tmp1Coarse xin
  let s ← M.attr (fun w => w.obj.solverCoarse)
  let b ← getVec .tmp1Coarse
  let x0 ← getVec .tmp2Coarse
  let (res, x) := s b x0
  setVec .tmp2Coarse x
  M.lift res
  prolongation C .tmp2Coarse xout

/-- `pre_twolvl(b, x_sol)`, space_time.py:1443-1450, with the coarse correction call of line 1444 as a
parameter. -/
noncomputable def preTwolvlWith (coarse : Ref → Ref → WM V Unit) (b x : Ref) : WM V Unit := do
  coarse b (.tmp 3)
  let _ ← M.attr (fun w => w.obj.fineTmps)
  applySpacetimeMatrix C (.tmp 3) (.tmp 4)
  let vb ← getVec b
  setVec (.tmp 5) vb
  let v5 ← getVec (.tmp 5)
  let v4 ← getVec (.tmp 4)
  setVec (.tmp 5) (v5 - v4)
  preTimeMarching C (.tmp 5) (.tmp 6)
  let v6 ← getVec (.tmp 6)
  setVec x v6
  let vx ← getVec x
  let v3 ← getVec (.tmp 3)
  setVec x (vx + v3)

/-- `pre_twolvl(b, x_sol)`: line 1444 looks up `self.otime.q_op`; `otime` is an `OrderTime` dataclass
with the fields `q`, `qstar` only (31-34), so the lookup raises `AttributeError`. -/
noncomputable def preTwolvl (b x : Ref) : WM V Unit :=
  preTwolvlWith C (fun _ _ => M.raise .attributeError) b x

end Dxss
