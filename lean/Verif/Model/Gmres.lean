import Verif.Model.Assembly
import Verif.Model.Monad

/-!
# `get_gmres_solution` (gmres.py)

PETSc is a parameter: what it does with a configured solver is described by `Petsc`.
-/

namespace Dxss

/-- The PETSc options database (global, mutable). -/
abbrev OptDB := String → Option String

/-- `PETSc.Options().setValue(name, value)` with an empty prefix.  (`True` is stored as `true`.) -/
def OptDB.set (db : OptDB) (name value : String) : OptDB := Function.update db name (some value)

/-- The configuration of a KSP object that matters for a solve. -/
structure Ksp where
  op : Vec → Vec                  -- the shell matrix: `context.mult`
  size : ℕ                        -- global size of the shell matrix
  kspType : String := ""
  restart : ℤ := 30               -- PETSc defaults
  rtol : ℝ := 1e-5
  atol : ℝ := 1e-50
  maxIt : ℤ := 10000
  pcType : String := ""
  pc : Option (Vec → Vec) := none -- `pre.apply`
  mgs : Bool := false             -- modified instead of classical Gram-Schmidt
  refine : String := "refine_never"
  prealloc : Bool := false
  monitored : Bool := false       -- the rate-printing monitor is installed

/-- What PETSc reports after `KSP.solve(b, x)`. -/
structure KspOut where
  reason : ℤ                      -- getConvergedReason()
  its : ℕ                         -- getIterationNumber()
  x : Vec                         -- content of x

/-- PETSc: parsing of option strings, the iteration itself, `KSP.buildResidual()`.  A solve may also
raise (errors inside the contexts, `-ksp_error_if_not_converged`, …). -/
structure Petsc where
  parseReal : String → Option ℝ
  parseInt : String → Option ℤ
  parseBool : String → Option Bool
  solve : Ksp → OptDB → Vec → Py KspOut
  residual : Ksp → OptDB → Vec → KspOut → Vec

/-- Calls made into PETSc, with the arguments received. -/
inductive PCall
  | setRestart (r : ℤ)
  | setTolerances (rtol atol : ℝ) (maxIt : ℤ)
  | setMonitor
  | solve (k : Ksp) (db : OptDB) (b : Vec)

/-- The global options database, the local KSP object, and the calls so far. -/
structure GSt where
  db : OptDB
  ksp : Ksp
  log : List PCall := []

namespace Gmres

def call (c : PCall) : M GSt Unit := M.modify fun s => { s with log := s.log ++ [c] }
def modKsp (f : Ksp → Ksp) : M GSt Unit := M.modify fun s => { s with ksp := f s.ksp }

/-- `KSPGMRESSetRestart`: raises unless positive. -/
def setRestart (r : ℤ) : M GSt Unit := do
  call (.setRestart r)
  if r < 1 then M.raise .petscError
  modKsp fun k => { k with restart := r }

/-- `KSPSetTolerances`: `PETSC_DEFAULT = -2` leaves a value as it is, other invalid values raise. -/
noncomputable def setTolerances (rtol atol : ℝ) (maxIt : ℤ) : M GSt Unit := do
  call (.setTolerances rtol atol maxIt)
  if rtol ≠ -2 then
    if rtol < 0 ∨ 1 ≤ rtol then M.raise .petscError
    modKsp fun k => { k with rtol := rtol }
  if atol ≠ -2 then
    if atol < 0 then M.raise .petscError
    modKsp fun k => { k with atol := atol }
  if maxIt ≠ -2 then
    if maxIt < 0 then M.raise .petscError
    modKsp fun k => { k with maxIt := maxIt }

/-- An option that is absent leaves the value; one that cannot be parsed raises. -/
def option {α : Type} (key : String) (parse : String → Option α) (f : α → M GSt Unit) : M GSt Unit := do
  let s ← M.get
  match s.db key with
  | none => return ()
  | some str => match parse str with
    | some a => f a
    | none => M.raise .petscError

/-- `KSPSetFromOptions`, restricted to the options that concern the values set by the code.  All other
options act through the database passed to `Petsc.solve`. -/
def setFromOptions (P : Petsc) : M GSt Unit := do
  option "pc_type" some fun v => modKsp fun k => { k with pcType := v }
  option "ksp_type" some fun v => modKsp fun k => { k with kspType := v }
  option "ksp_max_it" P.parseInt fun v => modKsp fun k => { k with maxIt := v }
  option "ksp_rtol" P.parseReal fun v => modKsp fun k => { k with rtol := v }
  option "ksp_atol" P.parseReal fun v => modKsp fun k => { k with atol := v }
  option "ksp_gmres_restart" P.parseInt fun v => modKsp fun k => { k with restart := v }
  option "ksp_gmres_preallocate" P.parseBool fun v => modKsp fun k => { k with prealloc := v }
  option "ksp_gmres_modifiedgramschmidt" P.parseBool fun v => modKsp fun k => { k with mgs := v }
  option "ksp_gmres_cgs_refinement_type" some fun v => modKsp fun k => { k with refine := v }

def setValue (name value : String) : M GSt Unit := M.modify fun s => { s with db := s.db.set name value }

/-- `get_gmres_solution(A, b, pre, maxsteps, tol, restart, printrates, reltol)`, gmres.py:23-106.
`A` and `pre` are given by the maps their `mult`/`apply` compute.  Printing, `view` and the
convergence history are omitted. -/
noncomputable def getGmresSolution (P : Petsc) (A : Vec → Vec) (n : ℕ) (b : Vec) (pre : Vec → Vec)
    (maxsteps : ℤ := 100) (tol : Option ℝ := none) (restart : Option ℤ := none)
    (printrates : Bool := true) (reltol : Option ℝ := none) : M GSt (Vec × Vec) := do
  modKsp fun _ => { op := A, size := n }                                  -- 53-61
  modKsp fun k => { k with kspType := "gmres" }                           -- 63
  let restart := match restart with | none => 1000 | some r => r          -- 65-66
  setRestart restart                                                      -- 67
  let tol : ℝ := match tol with | none => 1e-12 | some t => t             -- 69-70
  let reltol : ℝ := match reltol with | none => 1e-7 | some t => t        -- 71-72
  setTolerances reltol tol maxsteps                                       -- 73
  modKsp fun k => { k with pcType := "python", pc := some pre }           -- 76-79
  setValue "ksp_gmres_cgs_refinement_type" "refine_ifneeded"              -- 82
  setValue "ksp_gmres_modifiedgramschmidt" "true"                         -- 83
  setValue "ksp_gmres_preallocate" "true"                                 -- 84
  setFromOptions P                                                        -- 85
  if printrates then                                                      -- 87-88
    call .setMonitor
    modKsp fun k => { k with monitored := true }
  let s ← M.get
  call (.solve s.ksp s.db b)                                              -- 95
  let out ← M.lift (P.solve s.ksp s.db b)
  if out.reason < 0 then M.raise .petscError                              -- 96-102
  let r := P.residual s.ksp s.db b out                                    -- 104
  return (out.x, r)                                                       -- 106

end Gmres
end Dxss
