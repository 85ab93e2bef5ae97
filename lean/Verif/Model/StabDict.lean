import Verif.Model.History

/-!
# The dictionary of stabilisation parameters

The object keeps a reference to the dictionary the caller passed (space_time.py:123) and looks the parameters up whenever a form
is built.  In the other files the four numbers are part of the configuration; here the look-ups are made where the code makes
them.  They come after the creation of test and trial functions (which fails without finite elements) and before everything
else a function does.  `Cfg.withStabs` is the configuration with the numbers that were read; a function that reads fewer than
four leaves the others, which it does not use, as they are.
-/

namespace Dxss
variable {V : Type} [AddCommGroup V] [Module ℝ V] (C : Cfg V)

/-- A dictionary with strings as keys. -/
abbrev StabDict := String → Option ℝ

/-- `d[key]` -/
def StabDict.look (d : StabDict) (key : String) : Py ℝ :=
  match d key with
  | some a => .ok a
  | none => .error .keyError

/-- The configuration with other stabilisation parameters. -/
def Cfg.withStabs (gData gDual gPrimal gJump : ℝ) : Cfg V :=
  { C with D := { C.D with gData := gData, gDual := gDual, gPrimal := gPrimal, gJump := gJump } }

namespace Dict
variable (d : StabDict)

/-- space_time.py:342-707; look-ups 372-375. -/
noncomputable def setupSpacetimeMatrix (precond : Bool) : WM V (Mat × List Term) := do
  let _ ← M.attr (fun w => w.obj.dofmaps)
  let gData ← M.lift (d.look "data")
  let gDual ← M.lift (d.look "dual")
  let gPrimal ← M.lift (d.look "primal")
  let gJump ← M.lift (d.look "primal-jump")
  Dxss.setupSpacetimeMatrix (C.withStabs gData gDual gPrimal gJump) precond

/-- space_time.py:709-717 -/
noncomputable def getSpacetimeMatrix (precond : Bool) : WM V Mat := do
  let w ← M.get
  match w.obj.stMat with
  | some A => return A
  | none =>
    let (A, F) ← setupSpacetimeMatrix C d precond
    modObj fun o => { o with stBfi := some F }
    modObj fun o => { o with stMat := some A }
    return A

/-- space_time.py:719-728 -/
noncomputable def getSpacetimeBfi (precond : Bool) : WM V (List Term) := do
  let w ← M.get
  match w.obj.stBfi with
  | some F => return F
  | none =>
    let (A, F) ← setupSpacetimeMatrix C d precond
    modObj fun o => { o with stBfi := some F }
    modObj fun o => { o with stMat := some A }
    return F

/-- space_time.py:730-792; look-ups 735-736. -/
noncomputable def setupRhs : WM V Unit := do
  let _ ← M.attr (fun w => w.obj.dofmaps)
  let gJump ← M.lift (d.look "primal-jump")
  let gData ← M.lift (d.look "data")
  Dxss.setupRhs (C.withStabs gData C.D.gDual C.D.gPrimal gJump)

/-- space_time.py:794-797 -/
noncomputable def getSpacetimeRhs : WM V Ref := do
  let w ← M.get
  if w.obj.rhs.isNone then setupRhs C d
  return .rhs

/-- space_time.py:799-802 -/
noncomputable def getSpacetimeLfi : WM V (List (LTerm V)) := do
  let w ← M.get
  if w.obj.lfi.isNone then setupRhs C d
  M.attr (fun w => w.obj.lfi)

/-- space_time.py:804-840; look-up 810. -/
noncomputable def setupCoupling : WM V Unit := do
  let _ ← M.attr (fun w => w.obj.dofmaps)
  let gJump ← M.lift (d.look "primal-jump")
  Dxss.setupCoupling (C.withStabs C.D.gData C.D.gDual C.D.gPrimal gJump)

/-- space_time.py:842-865; look-up 848. -/
noncomputable def setupScaledMass : WM V Unit := do
  let _ ← M.attr (fun w => w.obj.dofmaps)
  let gJump ← M.lift (d.look "primal-jump")
  Dxss.setupScaledMass (C.withStabs C.D.gData C.D.gDual C.D.gPrimal gJump)

/-- space_time.py:866-1100; look-ups 884-887. -/
noncomputable def setupSlabMatrix (withJumps : Bool) : WM V Unit := do
  let _ ← M.attr (fun w => w.obj.dofmaps)
  let gData ← M.lift (d.look "data")
  let gDual ← M.lift (d.look "dual")
  let gPrimal ← M.lift (d.look "primal")
  let gJump ← M.lift (d.look "primal-jump")
  Dxss.setupSlabMatrix (C.withStabs gData gDual gPrimal gJump) withJumps

/-- space_time.py:1102-1106 -/
noncomputable def getSlabBfi : WM V (Option (List Term)) := do
  let w ← M.get
  if w.obj.slabBfi.isNone then
    setupSlabMatrix C d true
    setupSlabMatrix C d false
  let w' ← M.get
  return w'.obj.slabBfi

/-- space_time.py:1108-1112 -/
noncomputable def getSlabMatrix : WM V (Option Mat) := do
  let w ← M.get
  if w.obj.slabMat.isNone then
    setupSlabMatrix C d true
    setupSlabMatrix C d false
  let w' ← M.get
  return w'.obj.slabMat

/-- space_time.py:1329-1341 -/
noncomputable def prepareGmres : WM V Unit := do
  let w ← M.get
  if w.obj.slabMat.isNone then
    setupSlabMatrix C d true
    ext
    modObj fun o => { o with bRhsPre := some () }
    setVec .bRhsPre 0
  let w ← M.get
  if w.obj.firstMat.isNone && !C.D.wellPosed then
    setupSlabMatrix C d false
  let w ← M.get
  if w.obj.coupMat.isNone then setupCoupling C d
  let w ← M.get
  if w.obj.rhs.isNone then setupRhs C d
  let w ← M.get
  if w.obj.bndMat.isNone then setupScaledMass C d

/-- space_time.py:1186-1258; look-up 1196. -/
noncomputable def preTimeMarching (b x : Ref) : WM V Unit := do
  let gJump ← M.lift (d.look "primal-jump")
  Dxss.preTimeMarching (C.withStabs C.D.gData C.D.gDual C.D.gPrimal gJump) b x

/-- space_time.py:1260-1327; look-up 1273. -/
noncomputable def preTimeMarchingImproved (b x : Ref) : WM V Unit := do
  if C.D.jumpsFw then M.raise .valueError
  let _ ← M.lift (d.look "primal-jump")
  Dxss.preTimeMarchingImproved C b x

/-- space_time.py:1343-1396; the look-ups are those of `setup_spacetime_matrix`, called at 1385. -/
noncomputable def prepareCoarse (K : CoarseMesh V) : WM V Unit := do
  ext
  modObj fun o => { o with coarseMaps := some (buildDofmapsFull C.D K.full) }
  let _ ← M.attr (fun w => w.obj.dofmaps)
  modObj fun o => { o with coarseNode := some K }
  setVec .uNodeFine 0
  setVec .uNodeCoarse 0
  let gData ← M.lift (d.look "data")
  let gDual ← M.lift (d.look "dual")
  let gPrimal ← M.lift (d.look "primal")
  let gJump ← M.lift (d.look "primal-jump")
  ext
  modObj fun o => { o with coarseMat := some (coarseMatOf (C.withStabs gData gDual gPrimal gJump) K) }
  let _ ← M.attr (fun w => w.obj.lfi)
  ext
  modObj fun o => { o with fineTmps := some () }
  M.forList [1, 2, 3, 4, 5, 6] fun j => setVec (.tmp j) 0
  ext
  modObj fun o => { o with coarseTmps := some () }
  setVec .tmp1Coarse 0
  setVec .tmp2Coarse 0

/-- A public call; the calls that are not listed build no form. -/
noncomputable def runOp : Op V → WM V Unit
  | .getMatrix p => (getSpacetimeMatrix C d p).void
  | .getBfi p => (getSpacetimeBfi C d p).void
  | .getRhs => (getSpacetimeRhs C d).void
  | .getLfi => (getSpacetimeLfi C d).void
  | .getSlabBfi => (getSlabBfi C d).void
  | .getSlabMatrix => (getSlabMatrix C d).void
  | .prepare => prepareGmres C d
  | .pre b x => preTimeMarching C d b.ref (.user x)
  | .preImproved b x => preTimeMarchingImproved C d b.ref (.user x)
  | .prepareCoarse K => prepareCoarse C d K
  | .setupSlab j => setupSlabMatrix C d j
  | .setupCoupling => setupCoupling C d
  | .setupScaledMass => setupScaledMass C d
  | .setupRhs => setupRhs C d
  | .setupMatrix p => (setupSpacetimeMatrix C d p).void
  | op => Dxss.runOp C op

end Dict

/-- What a caller can do with an object and their dictionary. -/
inductive DictOp (V : Type) [AddCommGroup V] [Module ℝ V]
  | call (op : Op V)
  | assign (key : String) (x : ℝ)      -- d[key] = x
  | del (key : String)                 -- d.pop(key, None)

/-- The object and the dictionary it refers to. -/
structure DictWorld (V : Type) [AddCommGroup V] [Module ℝ V] where
  dict : StabDict
  world : World V

/-- One step; the caller catches exceptions. -/
noncomputable def DictOp.step (s : DictWorld V) : DictOp V → DictWorld V
  | .call op => { s with world := (Dict.runOp C s.dict op s.world).2 }
  | .assign key x => { s with dict := Function.update s.dict key (some x) }
  | .del key => { s with dict := Function.update s.dict key none }

noncomputable def runDictOps (ops : List (DictOp V)) (s : DictWorld V) : DictWorld V := ops.foldl (DictOp.step C) s

end Dxss
