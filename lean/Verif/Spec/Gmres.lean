import Verif.Model.Gmres
import Mathlib.Analysis.SpecialFunctions.Sqrt

/-!
# What users are told about the GMRes driver, and what PETSc promises
-/

namespace Dxss.Gmres

/-- `v` is the value of an option in database `db`, `d` if the option is not set. -/
def Sel {α : Type} (db : OptDB) (key : String) (parse : String → Option α) (d v : α) : Prop :=
  (db key = none ∧ v = d) ∨ ∃ str, db key = some str ∧ parse str = some v

/-- Tolerances that `KSPSetTolerances` accepts and stores. -/
def ValidTol (rtol atol : ℝ) (maxIt : ℤ) : Prop := 0 ≤ rtol ∧ rtol < 1 ∧ 0 ≤ atol ∧ 0 ≤ maxIt

/-- The value an optional argument stands for. -/
def orDefault {α : Type} (x : Option α) (d : α) : α := x.elim d id

/-- Size of a vector with `n` entries. -/
noncomputable def vnorm (n : ℕ) (v : Vec) : ℝ := Real.sqrt (∑ i ∈ Finset.range n, v i ^ 2)

/-- Contract of `KSP.buildResidual()`: the unpreconditioned residual. -/
def BuildsResidual (P : Petsc) : Prop :=
  ∀ k db b out i, P.residual k db b out i = b i - k.op out.x i

/-- Contract of the converged reasons 2 (`RTOL`) and 3 (`ATOL`) for a left-preconditioned method
started from zero. -/
structure TestsConvergence (P : Petsc) : Prop where
  rtol : ∀ k db b out p, P.solve k db b = .ok out → out.reason = 2 → k.pcType = "python" →
    k.pc = some p →
    vnorm k.size (p fun i => b i - k.op out.x i) ≤ k.rtol * vnorm k.size (p b)
  atol : ∀ k db b out p, P.solve k db b = .ok out → out.reason = 3 → k.pcType = "python" →
    k.pc = some p → vnorm k.size (p fun i => b i - k.op out.x i) ≤ k.atol

/-- The user has not set the options that override arguments of the function. -/
def NoOverride (db : OptDB) : Prop :=
  ∀ name ∈ ["ksp_type", "pc_type", "ksp_max_it", "ksp_rtol", "ksp_atol", "ksp_gmres_restart"], db name = none

end Dxss.Gmres
