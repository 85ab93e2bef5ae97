import Verif.Model.Coarse
import Verif.Model.Errors

/-!
# Public calls on a `SpaceTime` object and call histories
-/

namespace Dxss
variable {V : Type} [AddCommGroup V] [Module ℝ V] (C : Cfg V)

/-- A vector the caller can pass as input: their own, or the right-hand side they got. -/
inductive InVec
  | user (k : ℕ)
  | rhs

def InVec.ref : InVec → Ref
  | .user k => .user k
  | .rhs => .rhs

/-- A public call.  Output vectors belong to the caller. -/
inductive Op (V : Type) [AddCommGroup V] [Module ℝ V]
  | setupFE
  | getMatrix (precond : Bool)
  | getBfi (precond : Bool)
  | getRhs
  | getLfi
  | getSlabBfi
  | getSlabMatrix
  | getFirstBfi
  | getFirstMatrix
  | setSolverFirst (s : Solver)
  | setSolverSlab (s : Solver)
  | prepare                              -- prepare_precondition_gmres
  | apply (x : InVec) (y : ℕ)            -- apply_spacetime_matrix, SpaceTimePETScMatrixWrapper.mult
  | pre (b : InVec) (x : ℕ)              -- pre_time_marching
  | preImproved (b : InVec) (x : ℕ)      -- pre_time_marching_improved, …PreconditionerWrapper.apply
  | errors (u : InVec)                   -- measured_errors
  | paraView (u : InVec)                 -- plot_para_view
  | prepareCoarse (K : CoarseMesh V)
  | setSolverCoarse (s : Solver)
  | qOp (b : InVec) (x : ℕ)
  | preTwolvl (b : InVec) (x : ℕ)
  | setupSlab (withJumps : Bool)         -- setup_slab_matrix
  | setupCoupling
  | setupScaledMass
  | setupRhs
  | setInitial (u v : V)                 -- the caller writes into st.u1_0, st.u2_0
  | setupMatrix (precond : Bool)         -- setup_spacetime_matrix
  | slabMult (x : InVec) (y : ℕ)         -- slab_matrix_no_dg_jumps_multiply
  | coupMult (x : InVec) (y : ℕ)         -- coupling_matrix_between_slices_multiply
  | getMatrixCoarse
  | prolongation (xc : InVec) (xf : ℕ)
  | restriction (xc : ℕ) (xf : InVec)
  | plot (u : InVec)                     -- plot, plot_error
  | write (k : ℕ) (v : Vec)              -- the caller writes into one of their own vectors

/-- Discard the value. -/
def M.void {σ α : Type} (x : M σ α) : M σ Unit := do let _ ← x; return ()

/-- Setting the initial data: `u1_0`, `u2_0` are `None` before the finite elements are set up. -/
def setInitial (u v : V) : WM V Unit := do
  let _ ← M.attr (fun w => w.obj.u10)
  modObj fun o => { o with u10 := some u }
  let _ ← M.attr (fun w => w.obj.u20)
  modObj fun o => { o with u20 := some v }

/-- `plot(uh_inp)`, `plot_error(uh_inp)`, space_time.py:1584-1827: effects on the object only.  Everything written is
local to the call (the tables are described by `plotLoop`). -/
def plot (u : Ref) : WM V Unit := do
  let _ ← M.attr (fun w => w.obj.dofmaps)
  let _ ← getVec u
  ext

/-- Effect of a call (its return value is described by the function itself). -/
noncomputable def runOp : Op V → WM V Unit
  | .setupFE => setupFE C
  | .getMatrix p => (getSpacetimeMatrix C p).void
  | .getBfi p => (getSpacetimeBfi C p).void
  | .getRhs => (getSpacetimeRhs C).void
  | .getLfi => (getSpacetimeLfi C).void
  | .getSlabBfi => (getSlabBfi C).void
  | .getSlabMatrix => (getSlabMatrix C).void
  | .getFirstBfi => getSlabBfiFirst.void
  | .getFirstMatrix => getSlabMatrixFirst.void
  | .setSolverFirst s => setSolverFirst s
  | .setSolverSlab s => setSolverSlab s
  | .prepare => prepareGmres C
  | .apply x y => applySpacetimeMatrix C x.ref (.user y)
  | .pre b x => preTimeMarching C b.ref (.user x)
  | .preImproved b x => preTimeMarchingImproved C b.ref (.user x)
  | .errors u => (measuredErrors C u.ref).void
  | .paraView u => plotParaView C u.ref
  | .prepareCoarse K => Dxss.prepareCoarse C K
  | .setSolverCoarse s => Dxss.setSolverCoarse s
  | .qOp b x => Dxss.qOp C b.ref (.user x)
  | .preTwolvl b x => Dxss.preTwolvl C b.ref (.user x)
  | .setupSlab j => setupSlabMatrix C j
  | .setupCoupling => Dxss.setupCoupling C
  | .setupScaledMass => Dxss.setupScaledMass C
  | .setupRhs => Dxss.setupRhs C
  | .setInitial u v => Dxss.setInitial u v
  | .setupMatrix p => (setupSpacetimeMatrix C p).void
  | .slabMult x y => matMult (fun w => w.obj.slabMatNJ) x.ref (.user y)
  | .coupMult x y => matMult (fun w => w.obj.coupMat) x.ref (.user y)
  | .getMatrixCoarse => getSpacetimeMatrixCoarse.void
  | .prolongation xc xf => Dxss.prolongation C xc.ref (.user xf)
  | .restriction xc xf => Dxss.restriction C (.user xc) xf.ref
  | .plot u => Dxss.plot u.ref
  | .write k v => setVec (.user k) v

/-- A freshly constructed object.  The content of vectors is arbitrary. -/
def World.Fresh (w : World V) : Prop := w.obj = {}

/-- A history of calls; the caller catches exceptions. -/
noncomputable def runOps (ops : List (Op V)) (w : World V) : World V :=
  ops.foldl (fun w op => (runOp C op w).2) w

/-- No external call fails from now on. -/
def World.NoFail (w : World V) : Prop := ∀ k, w.clock ≤ k → w.sched k = false

end Dxss
