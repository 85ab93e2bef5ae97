import Verif.Model.Assembly
import Mathlib.Analysis.Analytic.Constructions
import Mathlib.Analysis.Calculus.FDeriv.Analytic
import Mathlib.Analysis.Calculus.Deriv.Add
import Mathlib.Analysis.Calculus.Deriv.Mul
import Mathlib.Analysis.SpecialFunctions.Trigonometric.Deriv
import Mathlib.MeasureTheory.Integral.IntervalIntegral.Basic

/-!
# The spatial integrands on an interval mesh

`Space` leaves the spatial integrands abstract.  Here they are written out for meshes of an interval, the
case of solve_1d.py (`create_unit_interval(MPI.COMM_WORLD, N_x)`, solve_1d.py:80).  Functions are given cell by
cell; on each cell they are (restrictions of) analytic functions, so that finite element functions, their
elementwise Laplacians and the sample solution of the script are all included.  Integrals over cells are
exact (the quadrature degree DOLFINx estimates is exact for the products of polynomials in the matrices).
-/

namespace Dxss
open Finset

/-- Functions which are analytic on the real line. -/
def Ana : Submodule ℝ (ℝ → ℝ) where
  carrier := {f | AnalyticOnNhd ℝ f Set.univ}
  add_mem' {f g} ha hb := show AnalyticOnNhd ℝ (f + g) Set.univ from
    AnalyticOnNhd.add (Set.mem_ofPred.1 ha) (Set.mem_ofPred.1 hb)
  zero_mem' := show AnalyticOnNhd ℝ (fun _ => (0:ℝ)) Set.univ from analyticOnNhd_const
  smul_mem' c f hf := show AnalyticOnNhd ℝ (c • f) Set.univ from
    AnalyticOnNhd.const_smul (c := c) (Set.mem_ofPred.1 hf)

theorem mem_ana {f : ℝ → ℝ} (h : AnalyticOnNhd ℝ f Set.univ) : f ∈ Ana := Set.mem_ofPred.2 h
theorem anaA (f : Ana) : AnalyticOnNhd ℝ f.1 Set.univ := Set.mem_ofPred.1 f.2
theorem anaDiff (f : Ana) : Differentiable ℝ f.1 := fun x => ((anaA f) x trivial).differentiableAt
theorem anaCont (f : Ana) : Continuous f.1 := (anaDiff f).continuous

/-- The derivative. -/
noncomputable def anaDeriv : Ana →ₗ[ℝ] Ana where
  toFun f := ⟨deriv f.1, mem_ana (anaA f).deriv⟩
  map_add' f g := Subtype.ext (funext fun x => deriv_add (anaDiff f x) (anaDiff g x))
  map_smul' c f := Subtype.ext (funext fun x => deriv_const_smul c (anaDiff f x))

noncomputable def anaMul : Ana →ₗ[ℝ] Ana →ₗ[ℝ] Ana :=
  LinearMap.mk₂ ℝ (fun f g => ⟨fun x => f.1 x * g.1 x, mem_ana ((anaA f).mul (anaA g))⟩)
    (fun _ _ _ => Subtype.ext (funext fun _ => add_mul _ _ _))
    (fun _ _ _ => Subtype.ext (funext fun _ => mul_assoc _ _ _))
    (fun _ _ _ => Subtype.ext (funext fun _ => mul_add _ _ _))
    (fun _ _ _ => Subtype.ext (funext fun _ => mul_left_comm _ _ _))

noncomputable def anaInt (a b : ℝ) : Ana →ₗ[ℝ] ℝ where
  toFun f := ∫ x in a..b, f.1 x
  map_add' f g := intervalIntegral.integral_add ((anaCont f).intervalIntegrable _ _) ((anaCont g).intervalIntegrable _ _)
  map_smul' _ _ := intervalIntegral.integral_const_mul _ _

def anaEval (a : ℝ) : Ana →ₗ[ℝ] ℝ where
  toFun f := f.1 a
  map_add' _ _ := rfl
  map_smul' _ _ := rfl

/-- `∫_a^b f g` -/
noncomputable def anaL2 (a b : ℝ) : Ana →ₗ[ℝ] Ana →ₗ[ℝ] ℝ := anaMul.compr₂ (anaInt a b)
/-- `f(a) g(a)` -/
noncomputable def anaPt (a : ℝ) : Ana →ₗ[ℝ] Ana →ₗ[ℝ] ℝ := (LinearMap.mul ℝ ℝ).compl₁₂ (anaEval a) (anaEval a)

/-- A mesh of an interval: the cells are `[x i, x (i+1)]`, `i < n`. -/
structure Mesh1 where
  n : ℕ
  x : ℕ → ℝ
  pos : 0 < n
  lt : ∀ i < n, x i < x (i + 1)

/-- `create_unit_interval(comm, n)`. -/
noncomputable def Mesh1.unit (n : ℕ) (hn : 0 < n) : Mesh1 where
  n := n
  x i := i / n
  pos := hn
  lt i _ := by
    have : (0:ℝ) < n := by exact_mod_cast hn
    exact div_lt_div_of_pos_right (by push_cast; linarith) this

/-- Functions given cell by cell. -/
abbrev Mesh1.Broken (m : Mesh1) := Fin m.n → Ana

namespace Mesh1
variable (m : Mesh1)

/-- `ufl.CellDiameter` on cell `i`. -/
def h (i : ℕ) : ℝ := m.x (i + 1) - m.x i

/-- The function on cell `i`. -/
def cell (i : ℕ) : m.Broken →ₗ[ℝ] Ana := if hi : i < m.n then LinearMap.proj ⟨i, hi⟩ else 0

/-- Jump of the gradient at the facet between the cells `i` and `i + 1`. -/
noncomputable def jumpGrad (i : ℕ) : m.Broken →ₗ[ℝ] ℝ :=
  (anaEval (m.x (i + 1))).comp (anaDeriv.comp (m.cell i)) - (anaEval (m.x (i + 1))).comp (anaDeriv.comp (m.cell (i + 1)))

/-- The integrands of space_time.py:349-540 on an interval mesh. -/
noncomputable def space : Space m.Broken where
  mass := ∑ i ∈ range m.n, (anaL2 (m.x i) (m.x (i + 1))).compl₁₂ (m.cell i) (m.cell i)
  stiff := ∑ i ∈ range m.n, (anaL2 (m.x i) (m.x (i + 1))).compl₁₂ (anaDeriv.comp (m.cell i)) (anaDeriv.comp (m.cell i))
  nit := (anaPt (m.x m.n)).compl₁₂ (anaDeriv.comp (m.cell (m.n - 1))) (m.cell (m.n - 1))
    - (anaPt (m.x 0)).compl₁₂ (anaDeriv.comp (m.cell 0)) (m.cell 0)
  pen := (1 / m.h 0) • (anaPt (m.x 0)).compl₁₂ (m.cell 0) (m.cell 0)
    + (1 / m.h (m.n - 1)) • (anaPt (m.x m.n)).compl₁₂ (m.cell (m.n - 1)) (m.cell (m.n - 1))
  ghost := ∑ i ∈ range (m.n - 1), (1 / 2 * (m.h i + m.h (i + 1))) • (LinearMap.mul ℝ ℝ).compl₁₂ (m.jumpGrad i) (m.jumpGrad i)
  h2 := ∑ i ∈ range m.n, (m.h i ^ 2) • (anaL2 (m.x i) (m.x (i + 1))).compl₁₂ (m.cell i) (m.cell i)
  omega := ∑ i ∈ range m.n, (anaMul.compl₁₂ (m.cell i) (m.cell i)).compr₂ ((anaL2 (m.x i) (m.x (i + 1))).compl₂ (m.cell i))
  lap := LinearMap.pi fun i => (anaDeriv.comp anaDeriv).comp (LinearMap.proj i)
  one := fun _ => ⟨fun _ => 1, mem_ana analyticOnNhd_const⟩
  mass_symm u w := by
    simp only [LinearMap.sum_apply, LinearMap.compl₁₂_apply]
    exact sum_congr rfl fun i _ => intervalIntegral.integral_congr fun _ _ => mul_comm _ _
  stiff_symm u w := by
    simp only [LinearMap.sum_apply, LinearMap.compl₁₂_apply]
    exact sum_congr rfl fun i _ => intervalIntegral.integral_congr fun _ _ => mul_comm _ _
  pen_symm u w := by simp [anaPt, mul_comm]
  ghost_symm u w := by simp [mul_comm]
  h2_symm u w := by
    simp only [LinearMap.sum_apply, LinearMap.smul_apply, LinearMap.compl₁₂_apply]
    exact sum_congr rfl fun i _ => congrArg _ (intervalIntegral.integral_congr fun _ _ => mul_comm _ _)
  omega_symm e u w := by
    simp only [LinearMap.sum_apply, LinearMap.compl₁₂_apply, LinearMap.compr₂_apply, LinearMap.compl₂_apply]
    exact sum_congr rfl fun i _ => intervalIntegral.integral_congr fun _ _ => mul_right_comm _ _ _

theorem space_mass (u w : m.Broken) :
    m.space.mass u w = ∑ i ∈ range m.n, ∫ y in (m.x i)..(m.x (i + 1)), (m.cell i u).1 y * (m.cell i w).1 y := by
  simp only [space, LinearMap.sum_apply, LinearMap.compl₁₂_apply]; rfl

theorem space_stiff (u w : m.Broken) : m.space.stiff u w
    = ∑ i ∈ range m.n, ∫ y in (m.x i)..(m.x (i + 1)), deriv (m.cell i u).1 y * deriv (m.cell i w).1 y := by
  simp only [space, LinearMap.sum_apply, LinearMap.compl₁₂_apply]; rfl

theorem space_nit (u w : m.Broken) : m.space.nit u w
    = deriv (m.cell (m.n - 1) u).1 (m.x m.n) * (m.cell (m.n - 1) w).1 (m.x m.n)
      - deriv (m.cell 0 u).1 (m.x 0) * (m.cell 0 w).1 (m.x 0) := rfl

theorem space_pen (u w : m.Broken) : m.space.pen u w
    = 1 / m.h 0 * ((m.cell 0 u).1 (m.x 0) * (m.cell 0 w).1 (m.x 0))
      + 1 / m.h (m.n - 1) * ((m.cell (m.n - 1) u).1 (m.x m.n) * (m.cell (m.n - 1) w).1 (m.x m.n)) := rfl

theorem jumpGrad_apply (i : ℕ) (u : m.Broken) :
    m.jumpGrad i u = deriv (m.cell i u).1 (m.x (i + 1)) - deriv (m.cell (i + 1) u).1 (m.x (i + 1)) := rfl

theorem space_ghost (u w : m.Broken) : m.space.ghost u w
    = ∑ i ∈ range (m.n - 1), 1 / 2 * (m.h i + m.h (i + 1)) * (m.jumpGrad i u * m.jumpGrad i w) := by
  simp only [space, LinearMap.sum_apply, LinearMap.smul_apply, LinearMap.compl₁₂_apply]; rfl

theorem space_h2 (u w : m.Broken) : m.space.h2 u w
    = ∑ i ∈ range m.n, m.h i ^ 2 * ∫ y in (m.x i)..(m.x (i + 1)), (m.cell i u).1 y * (m.cell i w).1 y := by
  simp only [space, LinearMap.sum_apply, LinearMap.smul_apply, LinearMap.compl₁₂_apply]; rfl

theorem space_omega (e u w : m.Broken) : m.space.omega e u w
    = ∑ i ∈ range m.n, ∫ y in (m.x i)..(m.x (i + 1)), (m.cell i e).1 y * (m.cell i u).1 y * (m.cell i w).1 y := by
  simp only [space, LinearMap.sum_apply, LinearMap.compl₁₂_apply, LinearMap.compr₂_apply, LinearMap.compl₂_apply]; rfl

/-! ### Linear elements -/

/-- The line through `(a, p)` with slope `s`. -/
def line (a p s : ℝ) : Ana := ⟨fun y => p + s * (y - a),
  mem_ana (analyticOnNhd_const.add (analyticOnNhd_const.mul (analyticOnNhd_id.sub analyticOnNhd_const)))⟩

/-- The basis function of node `s`. -/
noncomputable def hat (s : ℕ) : m.Broken := fun i =>
  if s = i then line (m.x i) 1 (-(1 / m.h i)) else if s = i + 1 then line (m.x i) 0 (1 / m.h i) else 0

/-- The elements `CG` of order 1 for the primal and the dual components (solve_1d.py:66-69 with `ORDER = 1`,
space_time.py:253-264). -/
noncomputable def p1 : FE m.Broken where
  mP := m.n + 1
  bP := m.hat
  mD := m.n + 1
  bD := m.hat

/-- A function of the coordinate, on all cells. -/
def fn (f : Ana) : m.Broken := fun _ => f

end Mesh1

open Real in
/-- `x ↦ c sin(2πx)` -/
noncomputable def anaSin (c : ℝ) : Ana := ⟨fun y => c * sin (2 * π * y),
  mem_ana (analyticOnNhd_const.mul (analyticOnNhd_sin.comp' (analyticOnNhd_const.mul analyticOnNhd_id)))⟩

open Real in
/-- `sample_sol` of solve_1d.py:100-101 as a curve of functions on the mesh. -/
noncomputable def Mesh1.sol1 (m : Mesh1) (t : ℝ) : m.Broken := m.fn (anaSin (cos (2 * π * t)))

open Real in
/-- `dt_sample_sol` of solve_1d.py:104-105. -/
noncomputable def Mesh1.dsol1 (m : Mesh1) (t : ℝ) : m.Broken := m.fn (anaSin (-2 * π * sin (2 * π * t)))

end Dxss
