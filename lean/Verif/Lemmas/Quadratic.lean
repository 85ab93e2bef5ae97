import Mathlib.Analysis.Normed.Module.FiniteDimension
import Mathlib.Topology.Order.Compact

/-! # Comparison of quadratic functions on a finite-dimensional space -/

namespace Dxss
open Finset

/-- A quadratic function is bounded by a multiple of a positive one. -/
theorem quad_le {n : ℕ} (f g : (Fin n → ℝ) → ℝ) (hf : Continuous f) (hg : Continuous g)
    (hfs : ∀ (c : ℝ) x, f (c • x) = c ^ 2 * f x) (hgs : ∀ (c : ℝ) x, g (c • x) = c ^ 2 * g x)
    (hpos : ∀ x, x ≠ 0 → 0 < g x) : ∃ K, 0 ≤ K ∧ ∀ x, f x ≤ K * g x := by
  have h0 : ∀ h : (Fin n → ℝ) → ℝ, (∀ (c : ℝ) x, h (c • x) = c ^ 2 * h x) → h 0 = 0 := by
    intro h hh
    simpa using hh 0 0
  rcases (Metric.sphere (0 : Fin n → ℝ) 1).eq_empty_or_nonempty with he | hne
  · refine ⟨0, le_rfl, fun x => ?_⟩
    have : x = 0 := by
      by_contra hx
      have : (‖x‖⁻¹ • x) ∈ Metric.sphere (0 : Fin n → ℝ) 1 := by
        rw [mem_sphere_zero_iff_norm, norm_smul, norm_inv, norm_norm, inv_mul_cancel₀ (norm_ne_zero_iff.2 hx)]
      rw [he] at this
      exact this
    rw [this, h0 f hfs, zero_mul]
  · have hcomp := isCompact_sphere (0 : Fin n → ℝ) 1
    obtain ⟨a, ha, hmin⟩ := hcomp.exists_isMinOn hne hg.continuousOn
    obtain ⟨b, hb, hmax⟩ := hcomp.exists_isMaxOn hne hf.continuousOn
    have ha0 : 0 < g a := hpos a (by
      rintro rfl
      rw [mem_sphere_zero_iff_norm, norm_zero] at ha
      exact zero_ne_one ha)
    refine ⟨|f b| / g a, by positivity, fun x => ?_⟩
    by_cases hx : x = 0
    · rw [hx, h0 f hfs, h0 g hgs, mul_zero]
    have hx' := norm_ne_zero_iff.2 hx
    have hs : (‖x‖⁻¹ • x) ∈ Metric.sphere (0 : Fin n → ℝ) 1 := by
      rw [mem_sphere_zero_iff_norm, norm_smul, norm_inv, norm_norm, inv_mul_cancel₀ hx']
    have h1 : f (‖x‖⁻¹ • x) ≤ |f b| := (hmax hs).trans (le_abs_self _)
    have h2 : g a ≤ g (‖x‖⁻¹ • x) := hmin hs
    have e : x = ‖x‖ • (‖x‖⁻¹ • x) := by rw [smul_smul, mul_inv_cancel₀ hx', one_smul]
    have ef : f x = ‖x‖ ^ 2 * f (‖x‖⁻¹ • x) := by rw [← hfs, ← e]
    have eg : g x = ‖x‖ ^ 2 * g (‖x‖⁻¹ • x) := by rw [← hgs, ← e]
    rw [ef, eg]
    have h3 : |f b| ≤ |f b| / g a * g (‖x‖⁻¹ • x) := by
      rw [div_mul_eq_mul_div, le_div_iff₀ ha0]
      exact mul_le_mul_of_nonneg_left h2 (abs_nonneg _)
    calc ‖x‖ ^ 2 * f (‖x‖⁻¹ • x) ≤ ‖x‖ ^ 2 * (|f b| / g a * g (‖x‖⁻¹ • x)) :=
          mul_le_mul_of_nonneg_left (h1.trans h3) (sq_nonneg _)
      _ = _ := by ring

end Dxss
