import Verif.Model.Grid
import Mathlib.MeasureTheory.Integral.DominatedConvergence
import Mathlib.Analysis.SpecialFunctions.Sqrt

/-!
# The spatial integrands on a triangulation

The spatial integrands (space_time.py:349-540) written out for triangulations in the plane: the case of solve_2d.py, whose mesh comes
from `get_mesh_data_all_around` (solve_2d.py:79-82, meshes.py:766-866).  As in `Model/Interval` and `Model/Grid`, functions are given
cell by cell by analytic functions, and integrals are exact.  As in DOLFINx, integrals over a triangle are taken on the reference
triangle and integrals over an edge on the unit interval.
-/

namespace Dxss
open Finset

/-- The point `A + s (B - A) + t (C - A)`. -/
def refPt (A B C : Fin 2 → ℝ) (s t : ℝ) : Fin 2 → ℝ := fun c => A c + s * (B c - A c) + t * (C c - A c)

/-- Twice the area of the triangle, if its vertices are listed counter-clockwise. -/
def det2 (A B C : Fin 2 → ℝ) : ℝ := (B 0 - A 0) * (C 1 - A 1) - (B 1 - A 1) * (C 0 - A 0)

/-- The point `A + s (B - A)` of an edge. -/
def segPt (A B : Fin 2 → ℝ) (s : ℝ) : Fin 2 → ℝ := fun c => A c + s * (B c - A c)

/-- The length of an edge. -/
noncomputable def segLen (A B : Fin 2 → ℝ) : ℝ := √((B 0 - A 0) ^ 2 + (B 1 - A 1) ^ 2)

/-- The unit normal of the edge from `A` to `B`, to the right of it. -/
noncomputable def segNrm (A B : Fin 2 → ℝ) : Fin 2 → ℝ := ![(B 1 - A 1) / segLen A B, -(B 0 - A 0) / segLen A B]

theorem refPt_cont (A B C : Fin 2 → ℝ) : Continuous fun p : ℝ × ℝ => refPt A B C p.1 p.2 := by unfold refPt; fun_prop
theorem segPt_cont (A B : Fin 2 → ℝ) : Continuous (segPt A B) := by unfold segPt; fun_prop

/-- Integrals over the reference triangle. -/
noncomputable def refInt (F : ℝ → ℝ → ℝ) : ℝ := ∫ s in (0:ℝ)..1, ∫ t in (0:ℝ)..(1 - s), F s t

theorem refInner_cont {F : ℝ → ℝ → ℝ} (hF : Continuous fun p : ℝ × ℝ => F p.1 p.2) : Continuous fun s => ∫ t in (0:ℝ)..(1 - s), F s t :=
  intervalIntegral.continuous_parametric_intervalIntegral_of_continuous (f := F) hF (by fun_prop)

theorem refInt_add {F G : ℝ → ℝ → ℝ} (hF : Continuous fun p : ℝ × ℝ => F p.1 p.2) (hG : Continuous fun p : ℝ × ℝ => G p.1 p.2) :
    refInt (fun s t => F s t + G s t) = refInt F + refInt G := by
  unfold refInt
  rw [← intervalIntegral.integral_add ((refInner_cont hF).intervalIntegrable _ _) ((refInner_cont hG).intervalIntegrable _ _)]
  refine intervalIntegral.integral_congr fun s _ => intervalIntegral.integral_add ?_ ?_ <;>
    refine Continuous.intervalIntegrable ?_ _ _
  · exact hF.comp (Continuous.prodMk_right s)
  · exact hG.comp (Continuous.prodMk_right s)

theorem refInt_smul (c : ℝ) (F : ℝ → ℝ → ℝ) : refInt (fun s t => c * F s t) = c * refInt F := by
  unfold refInt
  simp only [intervalIntegral.integral_const_mul]

namespace AnaD

theorem ref_cont (A B C : Fin 2 → ℝ) (f : AnaD 2) : Continuous fun p : ℝ × ℝ => f.1 (refPt A B C p.1 p.2) :=
  (cont f).comp (refPt_cont A B C)

/-- The integral over the triangle with the given vertices. -/
noncomputable def triInt (A B C : Fin 2 → ℝ) : AnaD 2 →ₗ[ℝ] ℝ where
  toFun f := det2 A B C * refInt fun s t => f.1 (refPt A B C s t)
  map_add' f g := by
    rw [← mul_add, ← refInt_add (ref_cont A B C f) (ref_cont A B C g)]; rfl
  map_smul' c f := by
    rw [RingHom.id_apply, smul_eq_mul, mul_left_comm, ← refInt_smul c fun s t => f.1 (refPt A B C s t)]; rfl

/-- The integral over the edge from `A` to `B`. -/
noncomputable def segInt (A B : Fin 2 → ℝ) : AnaD 2 →ₗ[ℝ] ℝ where
  toFun f := segLen A B * ∫ s in (0:ℝ)..1, f.1 (segPt A B s)
  map_add' f g := by
    rw [← mul_add]
    exact congrArg _ (intervalIntegral.integral_add (((cont f).comp (segPt_cont A B)).intervalIntegrable _ _)
      (((cont g).comp (segPt_cont A B)).intervalIntegrable _ _))
  map_smul' c f := by
    rw [RingHom.id_apply, smul_eq_mul, mul_left_comm]
    exact congrArg _ (intervalIntegral.integral_const_mul c _)

/-- `∫ f g` over a triangle and over an edge. -/
noncomputable def triL2 (A B C : Fin 2 → ℝ) : AnaD 2 →ₗ[ℝ] AnaD 2 →ₗ[ℝ] ℝ := mul.compr₂ (triInt A B C)
noncomputable def segL2 (A B : Fin 2 → ℝ) : AnaD 2 →ₗ[ℝ] AnaD 2 →ₗ[ℝ] ℝ := mul.compr₂ (segInt A B)

theorem mul_comm' {d : ℕ} (f g : AnaD d) : mul f g = mul g f := Subtype.ext (funext fun _ => mul_comm _ _)
theorem triL2_symm (A B C : Fin 2 → ℝ) (f g : AnaD 2) : triL2 A B C f g = triL2 A B C g f := congrArg (triInt A B C) (mul_comm' f g)
theorem segL2_symm (A B : Fin 2 → ℝ) (f g : AnaD 2) : segL2 A B f g = segL2 A B g f := congrArg (segInt A B) (mul_comm' f g)

/-- The derivative in the direction of a vector. -/
noncomputable def dir (w : Fin 2 → ℝ) : AnaD 2 →ₗ[ℝ] AnaD 2 := w 0 • pd 0 + w 1 • pd 1

end AnaD

/-- A triangulation.  The vertices of every triangle are listed counter-clockwise, edge `i` goes from vertex `i` to vertex `i + 1`
(modulo 3).  `nb` gives for every edge of a triangle the edge of the neighbour it is glued to, `none` on the boundary; neighbours
run through the common edge in opposite directions. -/
structure Tri where
  n : ℕ
  v : Fin n → Fin 3 → Fin 2 → ℝ
  pos : ∀ K, 0 < det2 (v K 0) (v K 1) (v K 2)
  nb : Fin n × Fin 3 → Option (Fin n × Fin 3)
  sym : ∀ e e', nb e = some e' → nb e' = some e
  glue : ∀ e e', nb e = some e' → v e'.1 e'.2 = v e.1 (e.2 + 1) ∧ v e'.1 (e'.2 + 1) = v e.1 e.2

namespace Tri
variable (m : Tri)

/-- An edge of a triangle. -/
abbrev Edge := Fin m.n × Fin 3

/-- Functions given cell by cell. -/
abbrev Broken := Fin m.n → AnaD 2

variable {m}
/-- Start, end, length and outer normal of an edge. -/
def src (e : m.Edge) : Fin 2 → ℝ := m.v e.1 e.2
def tgt (e : m.Edge) : Fin 2 → ℝ := m.v e.1 (e.2 + 1)
noncomputable def len (e : m.Edge) : ℝ := segLen (src e) (tgt e)
noncomputable def nrm (e : m.Edge) : Fin 2 → ℝ := segNrm (src e) (tgt e)

variable (m)
/-- `ufl.CellDiameter`: the largest distance between two vertices. -/
noncomputable def diam (K : Fin m.n) : ℝ := max (max (len (m := m) (K, 0)) (len (m := m) (K, 1))) (len (m := m) (K, 2))

/-- The function on triangle `K`. -/
def cell (K : Fin m.n) : m.Broken →ₗ[ℝ] AnaD 2 := LinearMap.proj K

/-- `∫ f g` over a triangle and over an edge. -/
noncomputable def cellL2 (K : Fin m.n) : AnaD 2 →ₗ[ℝ] AnaD 2 →ₗ[ℝ] ℝ := AnaD.triL2 (m.v K 0) (m.v K 1) (m.v K 2)
noncomputable def edgeL2 (e : m.Edge) : AnaD 2 →ₗ[ℝ] AnaD 2 →ₗ[ℝ] ℝ := AnaD.segL2 (src e) (tgt e)

/-- Component `b` of the jump of the gradient from edge `e` to edge `e'`. -/
noncomputable def jump (e e' : m.Edge) (b : Fin 2) : m.Broken →ₗ[ℝ] AnaD 2 :=
  (AnaD.pd b).comp (m.cell e.1) - (AnaD.pd b).comp (m.cell e'.1)

/-- The integrands of space_time.py:349-540 on a triangulation.  An interior facet appears twice as an edge of a triangle, therefore
the factor 1/2 in front of the integral over the interior facets. -/
noncomputable def space : Space m.Broken where
  mass := ∑ K, (m.cellL2 K).compl₁₂ (m.cell K) (m.cell K)
  stiff := ∑ K, ∑ b, (m.cellL2 K).compl₁₂ ((AnaD.pd b).comp (m.cell K)) ((AnaD.pd b).comp (m.cell K))
  nit := ∑ e : m.Edge, if m.nb e = none then
    (m.edgeL2 e).compl₁₂ ((AnaD.dir (nrm e)).comp (m.cell e.1)) (m.cell e.1) else 0
  pen := ∑ e : m.Edge, if m.nb e = none then
    (1 / m.diam e.1) • (m.edgeL2 e).compl₁₂ (m.cell e.1) (m.cell e.1) else 0
  ghost := (1 / 2 : ℝ) • ∑ e : m.Edge, (m.nb e).elim 0 fun e' =>
    (1 / 2 * (m.diam e.1 + m.diam e'.1)) • ∑ b, (m.edgeL2 e).compl₁₂ (m.jump e e' b) (m.jump e e' b)
  h2 := ∑ K, (m.diam K ^ 2) • (m.cellL2 K).compl₁₂ (m.cell K) (m.cell K)
  omega := ∑ K, (AnaD.mul.compl₁₂ (m.cell K) (m.cell K)).compr₂ ((m.cellL2 K).compl₂ (m.cell K))
  lap := LinearMap.pi fun K => ∑ b, ((AnaD.pd b).comp (AnaD.pd b)).comp (LinearMap.proj K)
  one := fun _ => ⟨fun _ => 1, AnaD.mem analyticOnNhd_const⟩
  mass_symm u w := by
    simp only [LinearMap.sum_apply, LinearMap.compl₁₂_apply]
    exact sum_congr rfl fun K _ => AnaD.triL2_symm _ _ _ _ _
  stiff_symm u w := by
    simp only [LinearMap.sum_apply, LinearMap.compl₁₂_apply]
    exact sum_congr rfl fun K _ => sum_congr rfl fun b _ => AnaD.triL2_symm _ _ _ _ _
  pen_symm u w := by
    simp only [LinearMap.sum_apply]
    refine sum_congr rfl fun e _ => ?_
    split
    · simp only [LinearMap.smul_apply, LinearMap.compl₁₂_apply]
      exact congrArg _ (AnaD.segL2_symm _ _ _ _)
    · rfl
  ghost_symm u w := by
    simp only [LinearMap.smul_apply, LinearMap.sum_apply]
    refine congrArg _ (sum_congr rfl fun e _ => ?_)
    rcases m.nb e with _ | e'
    · rfl
    · simp only [Option.elim_some, LinearMap.smul_apply, LinearMap.sum_apply, LinearMap.compl₁₂_apply]
      exact congrArg _ (sum_congr rfl fun b _ => AnaD.segL2_symm _ _ _ _)
  h2_symm u w := by
    simp only [LinearMap.sum_apply, LinearMap.smul_apply, LinearMap.compl₁₂_apply]
    exact sum_congr rfl fun K _ => congrArg _ (AnaD.triL2_symm _ _ _ _ _)
  omega_symm i u w := by
    simp only [LinearMap.sum_apply, LinearMap.compl₁₂_apply, LinearMap.compr₂_apply, LinearMap.compl₂_apply]
    refine sum_congr rfl fun K _ => congrArg (AnaD.triInt _ _ _) (Subtype.ext (funext fun _ => mul_right_comm _ _ _))

theorem space_mass (u w : m.Broken) : m.space.mass u w = ∑ K, m.cellL2 K (u K) (w K) := by
  simp only [space, LinearMap.sum_apply, LinearMap.compl₁₂_apply]; rfl

theorem space_stiff (u w : m.Broken) : m.space.stiff u w = ∑ K, ∑ b, m.cellL2 K (AnaD.pd b (u K)) (AnaD.pd b (w K)) := by
  simp only [space, LinearMap.sum_apply, LinearMap.compl₁₂_apply]; rfl

theorem space_nit (u w : m.Broken) : m.space.nit u w
    = ∑ e : m.Edge, if m.nb e = none then m.edgeL2 e (AnaD.dir (nrm e) (u e.1)) (w e.1) else 0 := by
  simp only [space, LinearMap.sum_apply]
  refine sum_congr rfl fun e _ => ?_
  split <;> rfl

theorem space_pen (u w : m.Broken) : m.space.pen u w
    = ∑ e : m.Edge, if m.nb e = none then 1 / m.diam e.1 * m.edgeL2 e (u e.1) (w e.1) else 0 := by
  simp only [space, LinearMap.sum_apply]
  refine sum_congr rfl fun e _ => ?_
  split <;> rfl

theorem space_ghost (u w : m.Broken) : m.space.ghost u w
    = 1 / 2 * ∑ e : m.Edge, (m.nb e).elim 0 fun e' =>
      1 / 2 * (m.diam e.1 + m.diam e'.1) * ∑ b, m.edgeL2 e (m.jump e e' b u) (m.jump e e' b w) := by
  simp only [space, LinearMap.smul_apply, LinearMap.sum_apply, smul_eq_mul]
  refine congrArg _ (sum_congr rfl fun e _ => ?_)
  rcases m.nb e with _ | e'
  · rfl
  · simp only [Option.elim_some, LinearMap.smul_apply, LinearMap.sum_apply, LinearMap.compl₁₂_apply]; rfl

theorem space_h2 (u w : m.Broken) : m.space.h2 u w = ∑ K, m.diam K ^ 2 * m.cellL2 K (u K) (w K) := by
  simp only [space, LinearMap.sum_apply, LinearMap.smul_apply, LinearMap.compl₁₂_apply]; rfl

theorem space_omega (i u w : m.Broken) : m.space.omega i u w = ∑ K, m.cellL2 K (AnaD.mul (i K) (u K)) (w K) := by
  simp only [space, LinearMap.sum_apply, LinearMap.compl₁₂_apply, LinearMap.compr₂_apply, LinearMap.compl₂_apply]; rfl

/-- A function of the coordinates, on all triangles. -/
def fn (f : AnaD 2) : m.Broken := fun _ => f

/-- Continuous piecewise polynomials of total degree at most `k`: `FiniteElement("CG", triangle, k)`, space_time.py:253-264. -/
def lagrange (k : ℕ) : Submodule ℝ m.Broken where
  carrier := {u | (∀ K, ∃ c : ℕ → ℕ → ℝ, ∀ x, (u K).1 x = ∑ i ∈ range (k + 1), ∑ j ∈ range (k + 1 - i), c i j * (x 0 ^ i * x 1 ^ j)) ∧
    ∀ e e', m.nb e = some e' → ∀ s ∈ Set.Icc (0:ℝ) 1, (u e.1).1 (segPt (src e) (tgt e) s) = (u e'.1).1 (segPt (src e) (tgt e) s)}
  add_mem' {u w} hu hw := by
    refine ⟨fun K => ?_, fun e e' h s hs => ?_⟩
    · obtain ⟨a, ha⟩ := hu.1 K
      obtain ⟨b, hb⟩ := hw.1 K
      refine ⟨fun i j => a i j + b i j, fun x => ?_⟩
      change (u K).1 x + (w K).1 x = _
      rw [ha, hb]
      simp only [add_mul, sum_add_distrib]
    · exact congrArg₂ (· + ·) (hu.2 e e' h s hs) (hw.2 e e' h s hs)
  zero_mem' := ⟨fun K => ⟨0, fun x => by simp⟩, fun e e' h s hs => rfl⟩
  smul_mem' c u hu := by
    refine ⟨fun K => ?_, fun e e' h s hs => ?_⟩
    · obtain ⟨a, ha⟩ := hu.1 K
      refine ⟨fun i j => c * a i j, fun x => ?_⟩
      change c * (u K).1 x = _
      rw [ha]
      simp only [mul_sum, mul_assoc]
    · exact congrArg (c * ·) (hu.2 e e' h s hs)

end Tri

open Real in
/-- `sample_sol` of solve_2d.py:100-101 as a curve of functions on the triangulation. -/
noncomputable def Tri.sol2 (m : Tri) (t : ℝ) : m.Broken := m.fn (AnaD.sines (cos (√2 * π * t)))

open Real in
/-- `dt_sample_sol` of solve_2d.py:104-111. -/
noncomputable def Tri.dsol2 (m : Tri) (t : ℝ) : m.Broken := m.fn (AnaD.sines (-√2 * π * sin (√2 * π * t)))

end Dxss
