import Verif.Model.Drivers
import Verif.Model.Construct
import Mathlib.Analysis.SpecialFunctions.Trigonometric.Basic

/-!
# Module-level data of the solver scripts

The constants, the sample solutions and the arguments of the `SpaceTime` constructor in
solve_1d.py, solve_2d.py and solve_3d.py.
-/

namespace Dxss

/-- `REF_LVL_TO_N`, solve_2d.py:60, solve_3d.py:64 -/
def refLvlToN : List ℤ := [1, 2, 4, 8, 16, 32]
/-- `REF_LVL`, solve_2d.py:61, solve_3d.py:65 -/
def refLvl : ℕ := 3
/-- `Nxs`, solve_3d.py:84 -/
def nxs : List ℤ := [2, 4, 8, 16, 32, 64]

namespace Script

/-- `ORDER`, solve_1d.py:65, solve_2d.py:66, solve_3d.py:72 -/
def order : Script → ℤ
  | .d1 => 1
  | .d2 => 3
  | .d3 => 1

/-- `OrderTime(q, qstar)`, solve_1d.py:67-69, solve_2d.py:68-70, solve_3d.py:74-76 -/
def otime (s : Script) : OrderTime := match s with
  | .d1 => ⟨s.order, if s.order = 1 then 1 else 0⟩
  | .d2 => ⟨s.order, s.order⟩
  | .d3 => ⟨s.order, s.order⟩

/-- `OrderSpace(k, kstar)` -/
def ospace (s : Script) : OrderSpace := match s with
  | .d1 => ⟨s.order, 1⟩
  | .d2 => ⟨s.order, s.order⟩
  | .d3 => ⟨s.order, s.order⟩

/-- `N`, solve_1d.py:63, solve_2d.py:65, solve_3d.py:71 -/
def N : Script → ℤ
  | .d1 => 32
  | .d2 => refLvlToN.getD refLvl 0
  | .d3 => refLvlToN.getD refLvl 0

/-- `T`, solve_1d.py:62, solve_2d.py:64, solve_3d.py:70 -/
noncomputable def T : Script → ℝ
  | .d1 => 1
  | .d2 => 1
  | .d3 => 1 / 2

/-- `STABS`, solve_1d.py:71-76, solve_2d.py:71-76, solve_3d.py:77-82 -/
noncomputable def stabs (_ : Script) : Stabs := ⟨1e4, 1, 1e-3, 1⟩

/-- `fitted=Nx > 2`, solve_3d.py:183 -/
def fitted3 (nx : ℤ) : Bool := decide (nx > 2)

/-- `fitted`: default in 1D and 2D, `Nx > 2` in 3D (solve_3d.py:183) -/
def fitted : Script → Bool
  | .d1 => true
  | .d2 => true
  | .d3 => fitted3 (nxs.getD refLvl 0)

variable {V : Type} [AddCommGroup V] [Module ℝ V]

/-- `omega=DataDomain(indicator_function=…)`, solve_1d.py:115, solve_2d.py:121, solve_3d.py:183 -/
def dataDomain (s : Script) (ind : V) : DataDomain V := ⟨ind, s.fitted⟩

/-- The call of the constructor, solve_1d.py:108-118, solve_2d.py:114-124, solve_3d.py:176-187, for the sample
solution and derivative as curves in the function space. -/
noncomputable def args (s : Script) (sol dsol : ℝ → V) : Args V where
  otime := s.otime
  ospace := s.ospace
  N := s.N
  T := s.T
  stabs := s.stabs
  sol := sol
  dsol := dsol
  t := 0
  parameters := {}

/-- Space dimension of the mesh. -/
def dim : Script → ℕ
  | .d1 => 1
  | .d2 => 2
  | .d3 => 3

open Real in
/-- `sample_sol(t, xu)`, solve_1d.py:100-101, solve_2d.py:100-101, solve_3d.py:156-162 -/
noncomputable def sampleSol : Script → ℝ → (ℕ → ℝ) → ℝ
  | .d1, t, xu => cos (2 * π * t) * sin (2 * π * xu 0)
  | .d2, t, xu => cos (√2 * π * t) * sin (π * xu 0) * sin (π * xu 1)
  | .d3, t, xu => cos (√3 * π * t) * sin (π * xu 0) * sin (π * xu 1) * sin (π * xu 2)

open Real in
/-- `dt_sample_sol(t, xu)`, solve_1d.py:104-105, solve_2d.py:104-111, solve_3d.py:165-173 -/
noncomputable def dtSampleSol : Script → ℝ → (ℕ → ℝ) → ℝ
  | .d1, t, xu => -2 * π * sin (2 * π * t) * sin (2 * π * xu 0)
  | .d2, t, xu => -√2 * π * sin (√2 * π * t) * sin (π * xu 0) * sin (π * xu 1)
  | .d3, t, xu => -√3 * π * sin (√3 * π * t) * sin (π * xu 0) * sin (π * xu 1) * sin (π * xu 2)

end Script
end Dxss
