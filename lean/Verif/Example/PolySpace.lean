import Verif.Model.Forms
import Mathlib.Algebra.Polynomial.Derivative
import Mathlib.Algebra.Polynomial.AlgebraMap
import Mathlib.Algebra.Polynomial.Roots
import Mathlib.MeasureTheory.Integral.IntervalIntegral.FundThmCalculus
import Mathlib.Analysis.Polynomial.Basic
import Mathlib.Analysis.SpecialFunctions.Integrals.Basic
import Mathlib.Topology.Algebra.Polynomial

/-!
# A concrete spatial discretisation

One element, the interval `[0,1]`, with polynomial functions on it and `h = 1`: the integrands are
the genuine ones.  Used only to show that hypotheses on `Space` can be met.
-/

namespace Dxss.Example
open Polynomial

/-- `∫₀¹ p`. -/
noncomputable def I : ℝ[X] →ₗ[ℝ] ℝ where
  toFun p := ∫ x in (0:ℝ)..1, p.eval x
  map_add' p r := by
    simp only [eval_add]
    exact intervalIntegral.integral_add (p.continuous.intervalIntegrable _ _)
      (r.continuous.intervalIntegrable _ _)
  map_smul' c p := by
    simp only [eval_smul, smul_eq_mul, RingHom.id_apply]
    exact intervalIntegral.integral_const_mul _ _

theorem I_sq_nonneg (p : ℝ[X]) : 0 ≤ I (p * p) :=
  intervalIntegral.integral_nonneg zero_le_one fun x _ => by
    rw [eval_mul]; exact mul_self_nonneg _

theorem I_sq_eq_zero {p : ℝ[X]} (h : I (p * p) = 0) : p = 0 := by
  by_contra hp
  have hfin : (p.rootSet ℝ).Finite := p.rootSet_finite ℝ
  obtain ⟨x, hx, hne⟩ : ∃ x ∈ Set.Ioo (0:ℝ) 1, x ∉ p.rootSet ℝ :=
    Set.Infinite.exists_notMem_finite (Set.Ioo_infinite one_pos) hfin
  have hx0 : p.eval x ≠ 0 := fun h0 => hne (by
    rw [mem_rootSet]; exact ⟨hp, by simpa [aeval_def] using h0⟩)
  have : 0 < I (p * p) := by
    refine intervalIntegral.integral_pos one_pos (p * p).continuous.continuousOn
      (fun y _ => by rw [eval_mul]; exact mul_self_nonneg _) ⟨x, ⟨hx.1.le, hx.2.le⟩, ?_⟩
    rw [eval_mul]; exact mul_self_pos.2 hx0
  exact this.ne' h

noncomputable abbrev mass : ℝ[X] →ₗ[ℝ] ℝ[X] →ₗ[ℝ] ℝ := (LinearMap.mul ℝ ℝ[X]).compr₂ I

/-- Evaluation at `a` as a linear functional. -/
noncomputable abbrev ev (a : ℝ) : ℝ[X] →ₗ[ℝ] ℝ := leval a

/-- `u(a) * w(a)`. -/
noncomputable abbrev atPt (a : ℝ) : ℝ[X] →ₗ[ℝ] ℝ[X] →ₗ[ℝ] ℝ :=
  (LinearMap.mul ℝ ℝ).compl₁₂ (ev a) (ev a)

noncomputable def polySpace : Space ℝ[X] where
  mass := mass
  stiff := mass.compl₁₂ derivative derivative
  nit := (atPt 1).compl₁₂ derivative LinearMap.id - (atPt 0).compl₁₂ derivative LinearMap.id
  pen := atPt 0 + atPt 1
  ghost := 0
  h2 := mass
  omega := (LinearMap.mul ℝ ℝ[X]).compr₂ mass
  lap := derivative ∘ₗ derivative
  one := 1
  mass_symm u w := by simp [mul_comm]
  stiff_symm u w := by simp [mul_comm]
  pen_symm u w := by simp [mul_comm]
  ghost_symm u w := rfl
  h2_symm u w := by simp [mul_comm]
  omega_symm i u w := by simp [mul_comm, mul_left_comm]

theorem polySpace_mass (u w : ℝ[X]) : polySpace.mass u w = ∫ x in (0:ℝ)..1, u.eval x * w.eval x := by
  simp [polySpace, I]

theorem polySpace_mass_pos {p : ℝ[X]} (h : p ≠ 0) : 0 < polySpace.mass p p := by
  refine lt_of_le_of_ne (I_sq_nonneg p) fun h0 => h (I_sq_eq_zero h0.symm)

end Dxss.Example
