import Verif.Model.Interval
import Mathlib.MeasureTheory.Integral.Bochner.Set
import Mathlib.MeasureTheory.Measure.Lebesgue.Basic
import Mathlib.MeasureTheory.Function.LocallyIntegrable

/-!
# The spatial integrands on a grid of boxes

The spatial integrands (space_time.py:349-540) written out for grids of axis-parallel boxes in any number of dimensions: the case
of solve_3d.py, `create_box(…, CellType.hexahedron)` (solve_3d.py:87-93).  As in `Model/Interval`, functions are given
cell by cell by analytic functions, and integrals over cells and facets are exact.  A grid is described by the meshes of its axes;
a cell by its position on each axis.  Facets perpendicular to axis `a` are parametrised by the other coordinates.
-/

namespace Dxss
open Finset MeasureTheory

/-- Functions of `d` coordinates, analytic on the whole space. -/
def AnaD (d : ℕ) : Submodule ℝ ((Fin d → ℝ) → ℝ) where
  carrier := {f | AnalyticOnNhd ℝ f Set.univ}
  add_mem' {f g} ha hb := show AnalyticOnNhd ℝ (f + g) Set.univ from
    AnalyticOnNhd.add (Set.mem_ofPred.1 ha) (Set.mem_ofPred.1 hb)
  zero_mem' := show AnalyticOnNhd ℝ (fun _ => (0:ℝ)) Set.univ from analyticOnNhd_const
  smul_mem' c f hf := show AnalyticOnNhd ℝ (c • f) Set.univ from
    AnalyticOnNhd.const_smul (c := c) (Set.mem_ofPred.1 hf)

namespace AnaD
variable {d n : ℕ}

theorem mem {f : (Fin d → ℝ) → ℝ} (h : AnalyticOnNhd ℝ f Set.univ) : f ∈ AnaD d := Set.mem_ofPred.2 h
theorem ana (f : AnaD d) : AnalyticOnNhd ℝ f.1 Set.univ := Set.mem_ofPred.1 f.2
theorem diff (f : AnaD d) : Differentiable ℝ f.1 := fun x => ((ana f) x trivial).differentiableAt
theorem cont (f : AnaD d) : Continuous f.1 := (diff f).continuous

/-- The partial derivative in direction `b`. -/
noncomputable def pd (b : Fin d) : AnaD d →ₗ[ℝ] AnaD d where
  toFun f := ⟨fun x => fderiv ℝ f.1 x (Pi.single b 1),
    mem ((ContinuousLinearMap.apply ℝ ℝ (Pi.single b (1:ℝ) : Fin d → ℝ)).comp_analyticOnNhd (ana f).fderiv)⟩
  map_add' f g := Subtype.ext (funext fun x => by
    change fderiv ℝ (f.1 + g.1) x _ = _
    rw [fderiv_add (diff f x) (diff g x)]; rfl)
  map_smul' c f := Subtype.ext (funext fun x => by
    change fderiv ℝ (c • f.1) x _ = _
    rw [fderiv_const_smul (diff f x)]; rfl)

noncomputable def mul : AnaD d →ₗ[ℝ] AnaD d →ₗ[ℝ] AnaD d :=
  LinearMap.mk₂ ℝ (fun f g => ⟨fun x => f.1 x * g.1 x, mem ((ana f).mul (ana g))⟩)
    (fun _ _ _ => Subtype.ext (funext fun _ => add_mul _ _ _))
    (fun _ _ _ => Subtype.ext (funext fun _ => mul_assoc _ _ _))
    (fun _ _ _ => Subtype.ext (funext fun _ => mul_add _ _ _))
    (fun _ _ _ => Subtype.ext (funext fun _ => mul_left_comm _ _ _))

theorem intOn {f : (Fin d → ℝ) → ℝ} (hf : Continuous f) (lo hi : Fin d → ℝ) : IntegrableOn f (Set.Icc lo hi) :=
  hf.continuousOn.integrableOn_compact isCompact_Icc

/-- The integral over the box with corners `lo` and `hi`. -/
noncomputable def int (lo hi : Fin d → ℝ) : AnaD d →ₗ[ℝ] ℝ where
  toFun f := ∫ x in Set.Icc lo hi, f.1 x
  map_add' f g := integral_add (intOn (cont f) lo hi) (intOn (cont g) lo hi)
  map_smul' c _ := integral_const_mul c _

/-- `∫ f g` over a box. -/
noncomputable def l2 (lo hi : Fin d → ℝ) : AnaD d →ₗ[ℝ] AnaD d →ₗ[ℝ] ℝ := mul.compr₂ (int lo hi)

theorem insert_ana (a : Fin (n + 1)) (s : ℝ) :
    AnalyticOnNhd ℝ (fun y : Fin n → ℝ => (a.insertNth s y : Fin (n + 1) → ℝ)) Set.univ := by
  refine AnalyticOnNhd.pi fun i => ?_
  rcases Fin.eq_self_or_eq_succAbove a i with rfl | ⟨j, rfl⟩
  · simpa using (analyticOnNhd_const : AnalyticOnNhd ℝ (fun _ : Fin n → ℝ => s) Set.univ)
  · simp only [Fin.insertNth_apply_succAbove]
    exact (ContinuousLinearMap.proj (R := ℝ) (φ := fun _ : Fin n => ℝ) j).analyticOnNhd Set.univ

/-- The restriction to the plane where the coordinate `a` is `s`. -/
noncomputable def face (a : Fin (n + 1)) (s : ℝ) : AnaD (n + 1) →ₗ[ℝ] AnaD n where
  toFun f := ⟨fun y => f.1 (a.insertNth s y), mem ((ana f).comp (insert_ana a s) fun _ _ => trivial)⟩
  map_add' _ _ := rfl
  map_smul' _ _ := rfl

/-- `∫ f g` over the facet of a box where the coordinate `a` is `s`. -/
noncomputable def faceL2 (a : Fin (n + 1)) (s : ℝ) (lo hi : Fin (n + 1) → ℝ) : AnaD (n + 1) →ₗ[ℝ] AnaD (n + 1) →ₗ[ℝ] ℝ :=
  (l2 (a.removeNth lo) (a.removeNth hi)).compl₁₂ (face a s) (face a s)

theorem l2_symm (lo hi : Fin d → ℝ) (f g : AnaD d) : l2 lo hi f g = l2 lo hi g f :=
  integral_congr_ae (Filter.Eventually.of_forall fun _ => mul_comm _ _)

theorem faceL2_symm (a : Fin (n + 1)) (s : ℝ) (lo hi : Fin (n + 1) → ℝ) (f g : AnaD (n + 1)) :
    faceL2 a s lo hi f g = faceL2 a s lo hi g f := l2_symm _ _ _ _

end AnaD

/-- A grid in `n + 1` dimensions, given by the meshes of the axes. -/
structure Grid (n : ℕ) where
  axis : Fin (n + 1) → Mesh1

/-- `create_box(comm, [[0, 0, 0], [1, 1, 1]], [k, k, k], CellType.hexahedron)` for `n = 2`. -/
noncomputable def Grid.unit (n k : ℕ) (hk : 0 < k) : Grid n := ⟨fun _ => Mesh1.unit k hk⟩

namespace Grid
variable {n : ℕ} (m : Grid n)

/-- A cell is given by its position on each axis. -/
abbrev Cell := (a : Fin (n + 1)) → Fin (m.axis a).n

/-- Functions given cell by cell. -/
abbrev Broken := m.Cell → AnaD (n + 1)

variable {m}

/-- The corners of a cell. -/
def lo (I : m.Cell) : Fin (n + 1) → ℝ := fun a => (m.axis a).x (I a)
def hi (I : m.Cell) : Fin (n + 1) → ℝ := fun a => (m.axis a).x (I a + 1)

/-- `ufl.CellDiameter`: the largest distance between two vertices. -/
noncomputable def diam (I : m.Cell) : ℝ := √(∑ a, (m.axis a).h (I a) ^ 2)

/-- The next cell in direction `a`. -/
def next (a : Fin (n + 1)) (I : m.Cell) (h : (I a).1 + 1 < (m.axis a).n) : m.Cell := Function.update I a ⟨I a + 1, h⟩

variable (m)

/-- The function on cell `I`. -/
def cell (I : m.Cell) : m.Broken →ₗ[ℝ] AnaD (n + 1) := LinearMap.proj I

/-- Component `b` of the jump of the gradient at the facet between cell `I` and the next one in direction `a`. -/
noncomputable def jump (a : Fin (n + 1)) (I : m.Cell) (h : (I a).1 + 1 < (m.axis a).n) (b : Fin (n + 1)) : m.Broken →ₗ[ℝ] AnaD (n + 1) :=
  (AnaD.pd b).comp (m.cell I) - (AnaD.pd b).comp (m.cell (next a I h))

/-- The integrands of space_time.py:349-540 on a grid. -/
noncomputable def space : Space m.Broken where
  mass := ∑ I : m.Cell, (AnaD.l2 (lo I) (hi I)).compl₁₂ (m.cell I) (m.cell I)
  stiff := ∑ I : m.Cell, ∑ b, (AnaD.l2 (lo I) (hi I)).compl₁₂ ((AnaD.pd b).comp (m.cell I)) ((AnaD.pd b).comp (m.cell I))
  nit := ∑ a, ∑ I : m.Cell,
    ((if (I a).1 + 1 = (m.axis a).n then
        (AnaD.faceL2 a (hi I a) (lo I) (hi I)).compl₁₂ ((AnaD.pd a).comp (m.cell I)) (m.cell I) else 0)
      - (if (I a).1 = 0 then
        (AnaD.faceL2 a (lo I a) (lo I) (hi I)).compl₁₂ ((AnaD.pd a).comp (m.cell I)) (m.cell I) else 0))
  pen := ∑ a, ∑ I : m.Cell,
    ((if (I a).1 + 1 = (m.axis a).n then
        (1 / diam I) • (AnaD.faceL2 a (hi I a) (lo I) (hi I)).compl₁₂ (m.cell I) (m.cell I) else 0)
      + (if (I a).1 = 0 then
        (1 / diam I) • (AnaD.faceL2 a (lo I a) (lo I) (hi I)).compl₁₂ (m.cell I) (m.cell I) else 0))
  ghost := ∑ a, ∑ I : m.Cell, if h : (I a).1 + 1 < (m.axis a).n then
      (1 / 2 * (diam I + diam (next a I h))) •
        ∑ b, (AnaD.faceL2 a (hi I a) (lo I) (hi I)).compl₁₂ (m.jump a I h b) (m.jump a I h b)
    else 0
  h2 := ∑ I : m.Cell, (diam I ^ 2) • (AnaD.l2 (lo I) (hi I)).compl₁₂ (m.cell I) (m.cell I)
  omega := ∑ I : m.Cell, (AnaD.mul.compl₁₂ (m.cell I) (m.cell I)).compr₂ ((AnaD.l2 (lo I) (hi I)).compl₂ (m.cell I))
  lap := LinearMap.pi fun I => ∑ b, ((AnaD.pd b).comp (AnaD.pd b)).comp (LinearMap.proj I)
  one := fun _ => ⟨fun _ => 1, AnaD.mem analyticOnNhd_const⟩
  mass_symm u w := by
    simp only [LinearMap.sum_apply, LinearMap.compl₁₂_apply]
    exact sum_congr rfl fun I _ => AnaD.l2_symm _ _ _ _
  stiff_symm u w := by
    simp only [LinearMap.sum_apply, LinearMap.compl₁₂_apply]
    exact sum_congr rfl fun I _ => sum_congr rfl fun b _ => AnaD.l2_symm _ _ _ _
  pen_symm u w := by
    simp only [LinearMap.sum_apply, LinearMap.add_apply]
    refine sum_congr rfl fun a _ => sum_congr rfl fun I _ => congrArg₂ (· + ·) ?_ ?_ <;> split <;>
      simp only [LinearMap.smul_apply, LinearMap.compl₁₂_apply, LinearMap.zero_apply] <;> rw [AnaD.faceL2_symm]
  ghost_symm u w := by
    simp only [LinearMap.sum_apply]
    refine sum_congr rfl fun a _ => sum_congr rfl fun I _ => ?_
    split
    · simp only [LinearMap.smul_apply, LinearMap.sum_apply, LinearMap.compl₁₂_apply]
      exact congrArg _ (sum_congr rfl fun b _ => AnaD.faceL2_symm _ _ _ _ _ _)
    · rfl
  h2_symm u w := by
    simp only [LinearMap.sum_apply, LinearMap.smul_apply, LinearMap.compl₁₂_apply]
    exact sum_congr rfl fun I _ => congrArg _ (AnaD.l2_symm _ _ _ _)
  omega_symm e u w := by
    simp only [LinearMap.sum_apply, LinearMap.compl₁₂_apply, LinearMap.compr₂_apply, LinearMap.compl₂_apply]
    exact sum_congr rfl fun I _ => integral_congr_ae (Filter.Eventually.of_forall fun _ => mul_right_comm _ _ _)

theorem space_mass (u w : m.Broken) : m.space.mass u w = ∑ I : m.Cell, ∫ y in Set.Icc (lo I) (hi I), (u I).1 y * (w I).1 y := by
  simp only [space, LinearMap.sum_apply, LinearMap.compl₁₂_apply]; rfl

theorem space_stiff (u w : m.Broken) : m.space.stiff u w
    = ∑ I : m.Cell, ∑ b, ∫ y in Set.Icc (lo I) (hi I), (AnaD.pd b (u I)).1 y * (AnaD.pd b (w I)).1 y := by
  simp only [space, LinearMap.sum_apply, LinearMap.compl₁₂_apply]; rfl

/-- `∫ f g` over a facet. -/
noncomputable def faceInt (a : Fin (n + 1)) (s : ℝ) (I : m.Cell) (f g : (Fin (n + 1) → ℝ) → ℝ) : ℝ :=
  ∫ y in Set.Icc (a.removeNth (lo I)) (a.removeNth (hi I)), f (a.insertNth s y) * g (a.insertNth s y)

theorem space_nit (u w : m.Broken) : m.space.nit u w = ∑ a, ∑ I : m.Cell,
    ((if (I a).1 + 1 = (m.axis a).n then m.faceInt a (hi I a) I (AnaD.pd a (u I)).1 (w I).1 else 0)
      - (if (I a).1 = 0 then m.faceInt a (lo I a) I (AnaD.pd a (u I)).1 (w I).1 else 0)) := by
  simp only [space, LinearMap.sum_apply, LinearMap.sub_apply]
  refine sum_congr rfl fun a _ => sum_congr rfl fun I _ => congrArg₂ (· - ·) ?_ ?_ <;> split <;> rfl

theorem space_pen (u w : m.Broken) : m.space.pen u w = ∑ a, ∑ I : m.Cell,
    ((if (I a).1 + 1 = (m.axis a).n then 1 / diam I * m.faceInt a (hi I a) I (u I).1 (w I).1 else 0)
      + (if (I a).1 = 0 then 1 / diam I * m.faceInt a (lo I a) I (u I).1 (w I).1 else 0)) := by
  simp only [space, LinearMap.sum_apply, LinearMap.add_apply]
  refine sum_congr rfl fun a _ => sum_congr rfl fun I _ => congrArg₂ (· + ·) ?_ ?_ <;> split <;> rfl

theorem space_ghost (u w : m.Broken) : m.space.ghost u w = ∑ a, ∑ I : m.Cell,
    if h : (I a).1 + 1 < (m.axis a).n then 1 / 2 * (diam I + diam (next a I h)) *
      ∑ b, m.faceInt a (hi I a) I (m.jump a I h b u).1 (m.jump a I h b w).1 else 0 := by
  simp only [space, LinearMap.sum_apply]
  refine sum_congr rfl fun a _ => sum_congr rfl fun I _ => ?_
  split
  · simp only [LinearMap.smul_apply, LinearMap.sum_apply, LinearMap.compl₁₂_apply]; rfl
  · rfl

theorem space_h2 (u w : m.Broken) : m.space.h2 u w
    = ∑ I : m.Cell, diam I ^ 2 * ∫ y in Set.Icc (lo I) (hi I), (u I).1 y * (w I).1 y := by
  simp only [space, LinearMap.sum_apply, LinearMap.smul_apply, LinearMap.compl₁₂_apply]; rfl

theorem space_omega (e u w : m.Broken) : m.space.omega e u w
    = ∑ I : m.Cell, ∫ y in Set.Icc (lo I) (hi I), (e I).1 y * (u I).1 y * (w I).1 y := by
  simp only [space, LinearMap.sum_apply, LinearMap.compl₁₂_apply, LinearMap.compr₂_apply, LinearMap.compl₂_apply]; rfl

/-! ### Multilinear elements -/

/-- The basis function of a node: on each cell the product of those of the axes. -/
noncomputable def hat (s : (a : Fin (n + 1)) → Fin ((m.axis a).n + 1)) : m.Broken := fun I =>
  ⟨fun x => ∏ a, ((m.axis a).hat (s a) (I a)).1 (x a), AnaD.mem <| Finset.analyticOnNhd_fun_prod _ fun a _ =>
    (anaA ((m.axis a).hat (s a) (I a))).comp
      ((ContinuousLinearMap.proj (R := ℝ) (φ := fun _ : Fin (n + 1) => ℝ) a).analyticOnNhd Set.univ) fun _ _ => trivial⟩

/-- The number of nodes. -/
abbrev nodes : ℕ := ∏ a, ((m.axis a).n + 1)

/-- The elements `CG` of order 1 (solve_3d.py:72-76, space_time.py:253-264).  The nodes are numbered axis by axis; by C100 the
numbering does not matter. -/
noncomputable def q1 : FE m.Broken where
  mP := m.nodes
  bP s := if h : s < m.nodes then m.hat (finPiFinEquiv.symm ⟨s, h⟩) else 0
  mD := m.nodes
  bD s := if h : s < m.nodes then m.hat (finPiFinEquiv.symm ⟨s, h⟩) else 0

/-- A function of the coordinates, on all cells. -/
def fn (f : AnaD (n + 1)) : m.Broken := fun _ => f

end Grid

open Real in
/-- `x ↦ c sin(πx₀) ⋯ sin(πxₙ)` -/
noncomputable def AnaD.sines {d : ℕ} (c : ℝ) : AnaD d := ⟨fun x => c * ∏ a, sin (π * x a), AnaD.mem <|
  analyticOnNhd_const.mul <| Finset.analyticOnNhd_fun_prod _ fun a _ => analyticOnNhd_sin.comp'
    (analyticOnNhd_const.mul ((ContinuousLinearMap.proj (R := ℝ) (φ := fun _ : Fin d => ℝ) a).analyticOnNhd Set.univ))⟩

open Real in
/-- `sample_sol` of solve_3d.py:156-162 (for `n = 2`) as a curve of functions on the grid. -/
noncomputable def Grid.sol3 {n : ℕ} (m : Grid n) (t : ℝ) : m.Broken := m.fn (AnaD.sines (cos (√3 * π * t)))

open Real in
/-- `dt_sample_sol` of solve_3d.py:165-173. -/
noncomputable def Grid.dsol3 {n : ℕ} (m : Grid n) (t : ℝ) : m.Broken := m.fn (AnaD.sines (-√3 * π * sin (√3 * π * t)))

end Dxss
