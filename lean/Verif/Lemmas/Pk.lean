import Verif.Lemmas.Interval
import Verif.Props.OneD
import Mathlib.RingTheory.Polynomial.DegreeLT
import Mathlib.LinearAlgebra.FiniteDimensional.Lemmas
import Mathlib.LinearAlgebra.Dimension.Free
import Mathlib.LinearAlgebra.Basis.VectorSpace
import Mathlib.Analysis.Analytic.Polynomial

/-! # Continuous elements of every order on an interval mesh -/

namespace Dxss
open Finset

theorem anaPoly (p : Polynomial ℝ) : AnalyticOnNhd ℝ (fun y => p.eval y) Set.univ := AnalyticOnNhd.eval_polynomial p

/-- A finite-dimensional space of functions has a basis, numbered from zero. -/
theorem exists_numbered {V : Type} [AddCommGroup V] [Module ℝ V] (W : Submodule ℝ V) (hW : FiniteDimensional ℝ W) :
    ∃ (k : ℕ) (b : ℕ → V), Submodule.span ℝ (b '' Set.Iio k) = W ∧
      ∀ a : ℕ → ℝ, ∑ s ∈ range k, a s • b s = 0 → ∀ s < k, a s = 0 := by
  have hF : Module.Free ℝ W := Module.Free.of_divisionRing ℝ W
  set e := Module.finBasis ℝ W with he
  set k := Module.finrank ℝ W with hk
  have hb : ∀ s : Fin k, (fun s : ℕ => if h : s < k then (e ⟨s, h⟩ : W).1 else 0) s = (e s).1 := fun s => dif_pos s.2
  refine ⟨k, fun s => if h : s < k then (e ⟨s, h⟩ : W).1 else 0, ?_, fun a h => ?_⟩
  · have : (fun s : ℕ => if h : s < k then (e ⟨s, h⟩ : W).1 else 0) '' Set.Iio k = W.subtype '' Set.range e := by
      ext v
      constructor
      · rintro ⟨s, hs, rfl⟩
        have hs : s < k := hs
        exact ⟨e ⟨s, hs⟩, ⟨_, rfl⟩, (hb ⟨s, hs⟩).symm⟩
      · rintro ⟨_, ⟨s, rfl⟩, rfl⟩
        exact ⟨s, s.2, hb s⟩
    rw [this, Submodule.span_image, e.span_eq, Submodule.map_top, Submodule.range_subtype]
  · have h1 : ∑ s : Fin k, a s • e s = 0 := by
      refine Subtype.ext ?_
      rw [Submodule.coe_sum, Submodule.coe_zero, ← h, ← Fin.sum_univ_eq_sum_range (fun s => a s • (if h : s < k then (e ⟨s, h⟩ : W).1 else 0))]
      exact sum_congr rfl fun s _ => by rw [dif_pos s.2]; rfl
    exact fun s hs => Fintype.linearIndependent_iff.1 e.linearIndependent (fun s => a s) h1 ⟨s, hs⟩

namespace Mesh1
variable (m : Mesh1)

/-- The function with given polynomials on the cells. -/
noncomputable def ofPoly (k : ℕ) : (Fin m.n → Polynomial.degreeLT ℝ (k + 1)) →ₗ[ℝ] m.Broken where
  toFun p i := ⟨fun y => (p i).1.eval y, mem_ana (anaPoly _)⟩
  map_add' p q := funext fun i => Subtype.ext (funext fun y => by simp)
  map_smul' c p := funext fun i => Subtype.ext (funext fun y => by simp)

theorem lagrange_finite (k : ℕ) : FiniteDimensional ℝ (m.lagrange k) := by
  have : m.lagrange k ≤ LinearMap.range (m.ofPoly k) := by
    intro v hv
    choose p hp he using (m.mem_lagrange.1 hv).1
    refine ⟨fun i => ⟨p i i.2, Polynomial.mem_degreeLT.2 ?_⟩, ?_⟩
    · exact lt_of_le_of_lt Polynomial.degree_le_natDegree (by exact_mod_cast Nat.lt_succ_iff.2 (hp i i.2))
    · funext i
      refine Subtype.ext (funext fun y => ?_)
      have := he i i.2 y
      rw [m.cell_apply i.2] at this
      exact this.symm
  exact Submodule.finiteDimensional_of_le this

/-- The elements of solve_1d.py with `ORDER = k`: continuous piecewise polynomials of degree at most `k` for the primal components
(space_time.py:253-258), degree 1 for the dual ones.  Which basis DOLFINx takes is left open. -/
noncomputable def pk (k : ℕ) : FE m.Broken where
  mP := (exists_numbered _ (m.lagrange_finite k)).choose
  bP := (exists_numbered _ (m.lagrange_finite k)).choose_spec.choose
  mD := m.n + 1
  bD := m.hat

theorem pk_primal (k : ℕ) : (m.pk k).primal = m.lagrange k := (exists_numbered _ (m.lagrange_finite k)).choose_spec.choose_spec.1

theorem pk_indep (k : ℕ) : (m.pk k).Indep := by
  have prim := (exists_numbered _ (m.lagrange_finite k)).choose_spec.choose_spec.2
  intro c a
  fin_cases c
  · exact prim a
  · exact prim a
  · exact fun h => m.hat_indep h
  · exact fun h => m.hat_indep h

end Mesh1
end Dxss
