import Verif.Model.Assembly
import Verif.Model.Monad

/-!
# The `SpaceTime` object: state, set-up methods, matrix-free product and time marching
-/

namespace Dxss

/-- Named vectors.  `user k` are vectors owned by the caller, the others are attributes of the
object.  Two arguments with the same `Ref` are the same Python object. -/
inductive Ref
  | user (k : ℕ)
  | rhs                          -- self.SpaceTimeRhs
  | vecSlab1 | vecSlab2          -- self.vec_slab1, self.vec_slab2
  | vecCoupling1 | vecCoupling2
  | bRhsPre                      -- self.b_rhs_pre
  | lPre                         -- the local `b_rhs_pre` of pre_time_marching
  | uhPre                        -- self.uh_pre (`.vector` and `.x.array` share memory)
  | bndIn | bndOut               -- self.vec_0_bnd_in, self.vec_0_bnd_out
  | u10Pre | u20Pre              -- self.u1_0_pre, self.u2_0_pre
  | uh                           -- self.uh
  | u1Minus | u1Slab (j : ℕ)     -- self.u1_minus, self.u1_slab[j]
  | uNodeFine | uNodeCoarse      -- self.u_node_fine, self.u_node_coarse
  | tmp (j : ℕ)                  -- self.tmp1_fine, self.tmp2_fine, self.tmp3_sol, …, self.tmp6_sol
  | tmp1Coarse | tmp2Coarse      -- self.tmp1_coarse, self.tmp2_coarse
  deriving DecidableEq

/-- A slab solver object.  `solve(b, x)` gets the contents of `b` and of `x` and returns the outcome
and the new content of `x` (also when it raises). -/
abbrev Solver := Vec → Vec → Py Unit × Vec

/-- The dof map attributes: Python lists of index arrays. -/
structure Dofmaps where
  full : Fin 4 → List (List ℕ)        -- self.dofmaps_full
  coup : Fin 4 → List (List ℕ)        -- self.dofmaps_coupling
  pre : Fin 4 → List (List ℕ)         -- self.dofmaps_pre
  bnd : Fin 4 → List ℕ                -- self.dofmaps_slab_bnd

/-- Immutable configuration of an object: constructor arguments and the function spaces DOLFINx
creates for them. -/
structure Cfg (V : Type) [AddCommGroup V] [Module ℝ V] where
  S : Space V
  D : Disc V
  fe : FE V
  full : FSpace
  slab : FSpace
  coup : FSpace
  bnd : FSpace
  pts : List ℝ                        -- self.qr.current_pts(0, 1)
  ws : List ℝ                         -- self.qr.t_weights(1)
  T : ℝ                               -- self.T
  dsol : ℝ → V                        -- self.solution.dvdt(t, x)
  ptsHo : List ℝ                      -- self.qr_ho.current_pts(0, 1)
  wsHo : List ℝ                       -- self.qr_ho.t_weights(1)
  samples : List ℝ                    -- self.sample_pts_error

/-- What a coarse mesh determines: the spatial integrands and spaces on it, the interpolation of the
indicator function to it (space_time.py:363-369), and DOLFINx' interpolation between the two primal scalar
spaces as a map of coefficient vectors. -/
structure CoarseMesh (V : Type) [AddCommGroup V] [Module ℝ V] where
  S : Space V
  indOf : V → V                      -- interpolation of the indicator into the DG0 functions of the coarse mesh
  fe : FE V
  full : FSpace
  toFine : Vec → Vec                  -- u_node_fine.interpolate(u_node_coarse)
  toCoarse : Vec → Vec                -- u_node_coarse.interpolate(u_node_fine)

/-- Mutable attributes; `none` is Python's `None` (or a missing attribute). -/
structure Obj (V : Type) [AddCommGroup V] [Module ℝ V] where
  dofmaps : Option Dofmaps := none        -- everything set by setup_spacetime_finite_elements
  stBfi : Option (List Term) := none      -- spacetime_bilinear_form
  stMat : Option Mat := none              -- spacetime_matrix
  slabBfi : Option (List Term) := none    -- slab_bilinear_form
  slabMat : Option Mat := none            -- slab_matrix
  slabBfiNJ : Option (List Term) := none  -- slab_bilinear_form_no_dg_jumps
  slabMatNJ : Option Mat := none          -- slab_matrix_no_dg_jumps
  firstBfi : Option (List Term) := none   -- SlabBfiFirstSlab
  firstMat : Option Mat := none           -- SlabMatFirstSlab
  coupMat : Option Mat := none            -- coupling_matrix_between_slices
  bndMat : Option Mat := none             -- scaled_mass_matrix_between_slices
  lfi : Option (List (LTerm V)) := none   -- SpaceTimeLfi
  rhs : Option Unit := none               -- SpaceTimeRhs (content in the heap)
  solverSlab : Option Solver := none
  solverFirst : Option Solver := none
  slabVecs : Option Unit := none          -- vec_slab1, vec_slab2 allocated
  coupVecs : Option Unit := none          -- vec_coupling1, vec_coupling2 allocated
  bndVecs : Option Unit := none           -- vec_0_bnd_in, vec_0_bnd_out allocated
  bRhsPre : Option Unit := none           -- b_rhs_pre allocated
  u10 : Option V := none                  -- u1_0 (initial data; a function of the primal space)
  u20 : Option V := none
  coarseMaps : Option (Fin 4 → List (List ℕ)) := none  -- dofmaps_full_coarse
  coarseNode : Option (CoarseMesh V) := none   -- u_node_fine, u_node_coarse and their interpolation
  coarseMat : Option Mat := none               -- SpaceTimeMatCoarse
  fineTmps : Option Unit := none               -- tmp1_fine, …, tmp6_sol allocated
  coarseTmps : Option Unit := none             -- tmp1_coarse, tmp2_coarse allocated
  solverCoarse : Option Solver := none         -- SolverCoarse

/-- The object, the contents of all vectors, and the outcome of external calls: the `k`-th external
call fails iff `sched k`. -/
structure World (V : Type) [AddCommGroup V] [Module ℝ V] where
  obj : Obj V
  heap : Ref → Vec
  sched : ℕ → Bool
  clock : ℕ

variable {V : Type} [AddCommGroup V] [Module ℝ V]

abbrev WM (V : Type) [AddCommGroup V] [Module ℝ V] := M (World V)

/-- A call into DOLFINx/PETSc (form compilation, assembly, allocation) that may raise. -/
def ext : WM V Unit := fun w =>
  (if w.sched w.clock then .error .runtimeError else .ok (), { w with clock := w.clock + 1 })

def setVec (r : Ref) (v : Vec) : WM V Unit := M.modify fun w =>
  { w with heap := Function.update w.heap r v }
def getVec (r : Ref) : WM V Vec := fun w => (.ok (w.heap r), w)
def modObj (f : Obj V → Obj V) : WM V Unit := M.modify fun w => { w with obj := f w.obj }

/-! ### numpy -/

/-- `l[i]` on a Python list. -/
def pyIdx {α : Type} (l : List α) (i : ℤ) : Py α :=
  match pyGet? l i with
  | some a => .ok a
  | none => .error .indexError

/-- Ordered element-wise assignment (later assignments win). -/
def scatter (a : Vec) : List ℕ → List ℝ → Vec
  | i :: is, v :: vs => scatter (Function.update a i v) is vs
  | _, _ => a

/-- `a[idx] = v` for index array `idx`: lengths must agree unless `v` has length one. Indices are
assumed in range (dof maps). -/
def npAssign (a : Vec) (idx : List ℕ) (v : List ℝ) : Py Vec :=
  if v.length = idx.length then .ok (scatter a idx v)
  else match v with
    | [x] => .ok (scatter a idx (List.replicate idx.length x))
    | _ => .error .valueError

/-- `a[idx] += v`, i.e. `a[idx] = a[idx] + v`. -/
def npAddAssign (a : Vec) (idx : List ℕ) (v : List ℝ) : Py Vec :=
  if v.length = idx.length then npAssign a idx (List.zipWith (· + ·) (idx.map a) v)
  else match v with
    | [x] => npAssign a idx (idx.map fun i => a i + x)
    | _ => .error .valueError

/-- `dst.array[idx] = src.array[idx']` -/
def copyBlock (dst : Ref) (idx : List ℕ) (src : Ref) (idx' : List ℕ) : WM V Unit := do
  let v ← getVec src
  let a ← getVec dst
  let a' ← M.lift (npAssign a idx (idx'.map v))
  setVec dst a'

/-- `dst.array[idx] += src.array[idx']` -/
def addBlock (dst : Ref) (idx : List ℕ) (src : Ref) (idx' : List ℕ) : WM V Unit := do
  let v ← getVec src
  let a ← getVec dst
  let a' ← M.lift (npAddAssign a idx (idx'.map v))
  setVec dst a'

/-! ### Loops over slabs and blocks -/

/-- `for n in range(N)` carrying the four running indices, e.g. space_time.py:1138-1184. -/
def slabForM {σ : Type} (q qstar N : ℕ) (body : Counters → ℕ → M σ Unit) : M σ Unit := do
  let _ ← M.forAcc (List.range N) Counters.init fun c n => do
    body c n
    return c.next q qstar

/-- `self.subspace_time_order[j]`, space_time.py:136-141 -/
def Disc.timeOrder (D : Disc V) : Fin 4 → ℕ := ![D.q, D.q, D.qstar, D.qstar]

/-- `int_idx_q if j in [0, 1] else int_idx_qstar` -/
def Counters.shift (c : Counters) (j : Fin 4) : ℤ := if j = 0 ∨ j = 1 then c.intQ else c.intQs

/-- `for j in range(4): shift_idx = …; for ell in range(self.subspace_time_order[j] + 1): body`,
e.g. space_time.py:1144-1146; the body receives `j`, `shift_idx + ell` and `ell`. -/
def blockLoop {σ : Type} (D : Disc V) (c : Counters) (body : Fin 4 → ℤ → ℕ → M σ Unit) : M σ Unit :=
  M.forList [0, 1, 2, 3] fun j =>
    M.forList (List.range (D.timeOrder j + 1)) fun ell => body j (c.shift j + ell) ell

variable (C : Cfg V)

/-! ### `setup_spacetime_finite_elements` -/

/-- space_time.py:266-278: the list appended to for component `j`. -/
def buildDofmapsFull (D : Disc V) (L : FSpace) (j : Fin 4) : List (List ℕ) :=
  slabLoop D.q D.qstar D.N fun c _ =>
    (List.range (D.timeOrder j + 1)).map fun (ell : ℕ) => L.collapse j (c.shift j + (ell : ℤ)).toNat

/-- space_time.py:293-296, 303-305, 324-330 -/
def mkDofmaps : Dofmaps where
  full := buildDofmapsFull C.D C.full
  coup j := if j = 0 ∨ j = 1 then (List.range 2).map (C.coup.collapse j) else []
  pre j := (List.range (C.D.timeOrder j + 1)).map (C.slab.collapse j)
  bnd j := if j = 0 ∨ j = 1 then C.bnd.collapse j 0 else []

/-- space_time.py:251-341.  New `fem.Function`s are zero. -/
def setupFE : WM V Unit := do
  ext
  modObj fun o => { o with dofmaps := some (mkDofmaps C), u10 := some 0, u20 := some 0 }
  setVec .uhPre 0
  setVec .u10Pre 0
  setVec .u20Pre 0

/-! ### Assembly of the operators -/

noncomputable def stMatOf (precond : Bool) : Mat :=
  assemble C.S C.D.ind C.fe C.full (C.D.stForm precond)
noncomputable def slabMatOf (withJumps : Bool) : Mat :=
  assemble C.S C.D.ind C.fe C.slab (C.D.slabForm withJumps)
noncomputable def coupMatOf : Mat := assemble C.S C.D.ind C.fe C.coup C.D.couplingForm
noncomputable def bndMatOf : Mat := assemble C.S C.D.ind C.fe C.bnd C.D.bndForm
noncomputable def rhsVecOf (u10 u20 : V) : Vec :=
  assembleVec C.S C.D.ind C.fe C.full (C.D.rhsForm C.S C.pts C.ws u10 u20)

/-- space_time.py:342-707 with `afes = self.fes`. -/
noncomputable def setupSpacetimeMatrix (precond : Bool) : WM V (Mat × List Term) := do
  let _ ← M.attr (fun w => w.obj.dofmaps)
  ext
  return (stMatOf C precond, C.D.stForm precond)

/-- space_time.py:709-717 -/
noncomputable def getSpacetimeMatrix (precond : Bool) : WM V Mat := do
  let w ← M.get
  match w.obj.stMat with
  | some A => return A
  | none =>
    let (A, F) ← setupSpacetimeMatrix C precond
    modObj fun o => { o with stBfi := some F }
    modObj fun o => { o with stMat := some A }
    return A

/-- space_time.py:719-728 -/
noncomputable def getSpacetimeBfi (precond : Bool) : WM V (List Term) := do
  let w ← M.get
  match w.obj.stBfi with
  | some F => return F
  | none =>
    let (A, F) ← setupSpacetimeMatrix C precond
    modObj fun o => { o with stBfi := some F }
    modObj fun o => { o with stMat := some A }
    return F

/-- space_time.py:730-792 -/
noncomputable def setupRhs : WM V Unit := do
  let _ ← M.attr (fun w => w.obj.dofmaps)
  let u10 ← M.attr (fun w => w.obj.u10)
  let u20 ← M.attr (fun w => w.obj.u20)
  ext
  modObj fun o => { o with lfi := some (C.D.rhsForm C.S C.pts C.ws u10 u20) }
  setVec .rhs (rhsVecOf C u10 u20)
  modObj fun o => { o with rhs := some () }

/-- space_time.py:794-797 -/
noncomputable def getSpacetimeRhs : WM V Ref := do
  let w ← M.get
  if w.obj.rhs.isNone then setupRhs C
  return .rhs

/-- space_time.py:799-802 -/
noncomputable def getSpacetimeLfi : WM V (List (LTerm V)) := do
  let w ← M.get
  if w.obj.lfi.isNone then setupRhs C
  M.attr (fun w => w.obj.lfi)

/-- space_time.py:804-840.  `createVecs` may fail after the matrix attribute has been set. -/
noncomputable def setupCoupling : WM V Unit := do
  let _ ← M.attr (fun w => w.obj.dofmaps)
  ext
  modObj fun o => { o with coupMat := some (coupMatOf C) }
  ext
  modObj fun o => { o with coupVecs := some () }
  setVec .vecCoupling1 0
  setVec .vecCoupling2 0

/-- space_time.py:842-865 -/
noncomputable def setupScaledMass : WM V Unit := do
  let _ ← M.attr (fun w => w.obj.dofmaps)
  ext
  modObj fun o => { o with bndMat := some (bndMatOf C) }
  ext
  modObj fun o => { o with bndVecs := some () }
  setVec .bndIn 0
  setVec .bndOut 0

/-- space_time.py:866-1100 -/
noncomputable def setupSlabMatrix (withJumps : Bool) : WM V Unit := do
  let _ ← M.attr (fun w => w.obj.dofmaps)
  ext
  if withJumps then
    modObj fun o => { o with slabBfi := some (C.D.slabForm true) }
    modObj fun o => { o with slabMat := some (slabMatOf C true) }
    if C.D.wellPosed then
      modObj fun o => { o with firstBfi := some (C.D.slabForm true) }
      modObj fun o => { o with firstMat := some (slabMatOf C true) }
  else
    modObj fun o => { o with slabBfiNJ := some (C.D.slabForm false) }
    modObj fun o => { o with slabMatNJ := some (slabMatOf C false) }
    ext
    modObj fun o => { o with slabVecs := some () }
    setVec .vecSlab1 0
    setVec .vecSlab2 0
    if !C.D.wellPosed then
      modObj fun o => { o with firstBfi := some (C.D.slabForm false) }
      modObj fun o => { o with firstMat := some (slabMatOf C false) }

/-- space_time.py:1102-1106 -/
noncomputable def getSlabBfi : WM V (Option (List Term)) := do
  let w ← M.get
  if w.obj.slabBfi.isNone then
    setupSlabMatrix C true
    setupSlabMatrix C false
  let w' ← M.get
  return w'.obj.slabBfi

/-- space_time.py:1108-1112 -/
noncomputable def getSlabMatrix : WM V (Option Mat) := do
  let w ← M.get
  if w.obj.slabMat.isNone then
    setupSlabMatrix C true
    setupSlabMatrix C false
  let w' ← M.get
  return w'.obj.slabMat

/-- space_time.py:1114-1118: may return `None`. -/
def getSlabBfiFirst : WM V (Option (List Term)) := fun w => (.ok w.obj.firstBfi, w)
def getSlabMatrixFirst : WM V (Option Mat) := fun w => (.ok w.obj.firstMat, w)

/-- space_time.py:1120-1125 -/
def setSolverFirst (s : Solver) : WM V Unit := modObj fun o => { o with solverFirst := some s }
def setSolverSlab (s : Solver) : WM V Unit := modObj fun o => { o with solverSlab := some s }

/-- space_time.py:1329-1341 -/
noncomputable def prepareGmres : WM V Unit := do
  let w ← M.get
  if w.obj.slabMat.isNone then
    setupSlabMatrix C true
    ext
    modObj fun o => { o with bRhsPre := some () }
    setVec .bRhsPre 0
  let w ← M.get
  if w.obj.firstMat.isNone && !C.D.wellPosed then
    setupSlabMatrix C false
  let w ← M.get
  if w.obj.coupMat.isNone then setupCoupling C
  let w ← M.get
  if w.obj.rhs.isNone then setupRhs C
  let w ← M.get
  if w.obj.bndMat.isNone then setupScaledMass C

/-! ### `apply_spacetime_matrix` -/

/-- space_time.py:1144-1149: gather slab `n` of `vec_in` into `vec_slab1`. -/
def mfGather (vin : Ref) (c : Counters) : WM V Unit :=
  blockLoop C.D c fun j i ell => do
    let dm ← M.attr (fun w => w.obj.dofmaps) .typeError
    let idx' ← M.lift (pyIdx (dm.full j) i)
    let _ ← M.attr (fun w => w.obj.slabVecs)
    let idx ← M.lift (pyIdx (dm.pre j) ell)
    copyBlock .vecSlab1 idx vin idx'

/-- space_time.py:1156-1161: add `vec_slab2` to slab `n` of `vec_out`. -/
def mfScatter (vout : Ref) (c : Counters) : WM V Unit :=
  blockLoop C.D c fun j i ell => do
    let dm ← M.attr (fun w => w.obj.dofmaps) .typeError
    let idx ← M.lift (pyIdx (dm.full j) i)
    let _ ← M.attr (fun w => w.obj.slabVecs)
    let idx' ← M.lift (pyIdx (dm.pre j) ell)
    addBlock vout idx .vecSlab2 idx'

/-- space_time.py:1164-1168 -/
def mfCoupGather (vin : Ref) (c : Counters) : WM V Unit :=
  M.forList [0, 1] fun (j : Fin 4) => M.forList (List.range 2) fun (i : ℕ) => do
    let dm ← M.attr (fun w => w.obj.dofmaps) .typeError
    let idx' ← M.lift (pyIdx (dm.full j) (c.couplingQ + i))
    let _ ← M.attr (fun w => w.obj.coupVecs)
    let idx ← M.lift (pyIdx (dm.coup j) i)
    copyBlock .vecCoupling1 idx vin idx'

/-- space_time.py:1175-1179 -/
def mfCoupScatter (vout : Ref) (c : Counters) : WM V Unit :=
  M.forList [0, 1] fun (j : Fin 4) => M.forList (List.range 2) fun (i : ℕ) => do
    let dm ← M.attr (fun w => w.obj.dofmaps) .typeError
    let idx ← M.lift (pyIdx (dm.full j) (c.couplingQ + i))
    let _ ← M.attr (fun w => w.obj.coupVecs)
    let idx' ← M.lift (pyIdx (dm.coup j) i)
    addBlock vout idx .vecCoupling2 idx'

/-- `A.mult(x, y)` for two vector attributes. -/
def matMult (A : World V → Option Mat) (x y : Ref) : WM V Unit := do
  let A ← M.attr A
  let v ← getVec x
  setVec y (A.mult v)

/-- Body of the slab loop, space_time.py:1144-1179. -/
def mfBody (vin vout : Ref) (c : Counters) (n : ℕ) : WM V Unit := do
  mfGather C vin c
  matMult (fun w => w.obj.slabMatNJ) .vecSlab1 .vecSlab2
  mfScatter C vout c
  if 0 < n then
    mfCoupGather vin c
    matMult (fun w => w.obj.coupMat) .vecCoupling1 .vecCoupling2
    mfCoupScatter vout c

/-- `apply_spacetime_matrix(vec_in, vec_out)`, space_time.py:1135-1184; also
`SpaceTimePETScMatrixWrapper.mult`, 1913-1926. -/
def applySpacetimeMatrix (vin vout : Ref) : WM V Unit := do
  setVec vout 0
  slabForM C.D.q C.D.qstar C.D.N (mfBody C vin vout)

/-! ### Time marching -/

/-- space_time.py:1230-1235, 1281-1286: add slab `n` of `b` to the slab right-hand side. -/
def preGather (b dst : Ref) (c : Counters) : WM V Unit :=
  blockLoop C.D c fun j i ell => do
    let dm ← M.attr (fun w => w.obj.dofmaps)
    let idx ← M.lift (pyIdx (dm.pre j) ell)
    let idx' ← M.lift (pyIdx (dm.full j) i)
    addBlock dst idx b idx'

/-- space_time.py:1248-1253, 1317-1322: write the slab solution into `x_sol`. -/
def preWrite (x : Ref) (c : Counters) : WM V Unit :=
  blockLoop C.D c fun j i ell => do
    let dm ← M.attr (fun w => w.obj.dofmaps)
    let idx' ← M.lift (pyIdx (dm.pre j) ell)
    let idx ← M.lift (pyIdx (dm.full j) i)
    copyBlock x idx .uhPre idx'

/-- `solver.solve(rhs, self.uh_pre.vector)`. -/
def runSolver (sel : Obj V → Option Solver) (r : Ref) : WM V Unit := do
  let s ← M.attr (fun w => sel w.obj)
  let b ← getVec r
  let x0 ← getVec .uhPre
  let (res, x) := s b x0
  setVec .uhPre x
  M.lift res

/-- space_time.py:1237-1242, 1288-1293 -/
def preSolve (r : Ref) (n : ℕ) : WM V Unit :=
  if n = 0 then runSolver (fun o => o.solverFirst) r else runSolver (fun o => o.solverSlab) r

/-- space_time.py:1297-1315: the load on the next slab from the top of the current one. -/
def preCarry : WM V Unit := do
  let dm ← M.attr (fun w => w.obj.dofmaps)
  let _ ← M.attr (fun w => w.obj.bndVecs)
  setVec .bndIn 0
  let t0 ← M.lift (pyIdx (dm.pre 0) C.D.q)
  addBlock .bndIn (dm.bnd 0) .uhPre t0
  let t1 ← M.lift (pyIdx (dm.pre 1) C.D.q)
  addBlock .bndIn (dm.bnd 1) .uhPre t1
  matMult (fun w => w.obj.bndMat) .bndIn .bndOut
  setVec .bRhsPre 0
  let b0 ← M.lift (pyIdx (dm.pre 0) 0)
  addBlock .bRhsPre b0 .bndOut (dm.bnd 0)
  let b1 ← M.lift (pyIdx (dm.pre 1) 0)
  addBlock .bRhsPre b1 .bndOut (dm.bnd 1)

/-- Body of the slab loop, space_time.py:1281-1322. -/
def preBody (b x : Ref) (c : Counters) (n : ℕ) : WM V Unit := do
  preGather C b .bRhsPre c
  preSolve .bRhsPre n
  preCarry C
  preWrite C x c

/-- `pre_time_marching_improved(b, x_sol)`, space_time.py:1260-1327; also
`SpaceTimePETScPreconditionerWrapper.apply`, 1884-1897. -/
def preTimeMarchingImproved (b x : Ref) : WM V Unit := do
  if C.D.jumpsFw then M.raise .valueError
  let _ ← M.attr (fun w => w.obj.bRhsPre)
  setVec .bRhsPre 0
  slabForM C.D.q C.D.qstar C.D.N (preBody C b x)

/-- The function with coefficient vector `v` in the (collapsed) primal scalar space. -/
noncomputable def nodeFun (fe : FE V) (v : Vec) : V := ∑ s ∈ Finset.range fe.mP, v s • fe.bP s

/-- `dst.x.array[:] = src.x.array[idx]` -/
def copyTop (dst src : Ref) (idx : List ℕ) : WM V Unit := do
  let v ← getVec src
  setVec dst fun s => v (idx.getD s 0)

/-- Body of the slab loop of `pre_time_marching`, space_time.py:1199-1253. -/
noncomputable def preOldBody (b x : Ref) (c : Counters) (n : ℕ) : WM V Unit := do
  let u1 ← getVec .u10Pre
  let u2 ← getVec .u20Pre
  setVec .lPre (assembleVec C.S C.D.ind C.fe C.slab
    (C.D.preLoad C.S n (nodeFun C.fe u1) (nodeFun C.fe u2)))
  preGather C b .lPre c
  preSolve .lPre n
  let dm ← M.attr (fun w => w.obj.dofmaps)
  let t0 ← M.lift (pyIdx (dm.pre 0) C.D.q)
  copyTop .u10Pre .uhPre t0
  let t1 ← M.lift (pyIdx (dm.pre 1) C.D.q)
  copyTop .u20Pre .uhPre t1
  preWrite C x c

/-- `pre_time_marching(b, x_sol)`, space_time.py:1186-1258.  (Before
`setup_spacetime_finite_elements` the attributes `y1_p`, … are `None`.) -/
noncomputable def preTimeMarching (b x : Ref) : WM V Unit := do
  let _ ← M.attr (fun w => w.obj.dofmaps) .typeError
  slabForM C.D.q C.D.qstar C.D.N (preOldBody C b x)

end Dxss
