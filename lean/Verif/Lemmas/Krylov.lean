import Mathlib.LinearAlgebra.Charpoly.Basic
import Mathlib.LinearAlgebra.Charpoly.BaseChange
import Mathlib.LinearAlgebra.Determinant
import Mathlib.LinearAlgebra.FiniteDimensional.Lemmas
import Mathlib.Data.Real.Basic

/-!
# Krylov spaces of a map that differs from the identity by a map of low rank
-/

namespace Dxss
open Finset Polynomial Module
set_option linter.unusedSectionVars false
variable {E : Type} [AddCommGroup E] [Module ℝ E] [FiniteDimensional ℝ E]

/-- An injective map of an `n`-dimensional space: every vector is the image of a combination of its first `n`
iterates. -/
theorem krylov_full (T : E →ₗ[ℝ] E) (hT : Function.Injective T) (v : E) {n : ℕ} (hn : finrank ℝ E ≤ n) :
    ∃ a : ℕ → ℝ, T (∑ i ∈ range n, a i • (T ^ i) v) = v := by
  have h0 := LinearMap.aeval_self_charpoly T
  have hc : T.charpoly.coeff 0 ≠ 0 := by
    intro h
    have hd := LinearMap.det_eq_sign_charpoly_coeff T
    rw [h, mul_zero] at hd
    have hu : IsUnit (LinearMap.det T) := by
      have : IsUnit T := (LinearMap.isUnit_iff_ker_eq_bot T).2 (LinearMap.ker_eq_bot.2 hT)
      exact this.map LinearMap.det
    rw [hd] at hu
    simp at hu
  have hdeg : T.charpoly.natDegree ≤ n := (LinearMap.charpoly_natDegree T).le.trans hn
  have h1 : ∑ i ∈ range (n + 1), T.charpoly.coeff i • (T ^ i) v = 0 := by
    have h2 : (aeval T T.charpoly) v = 0 := by rw [h0]; rfl
    rw [aeval_eq_sum_range' (Nat.lt_succ_of_le hdeg)] at h2
    simpa using h2
  rw [sum_range_succ', pow_zero] at h1
  refine ⟨fun i => -(T.charpoly.coeff 0)⁻¹ * T.charpoly.coeff (i + 1), ?_⟩
  have h3 : T (∑ i ∈ range n, (-(T.charpoly.coeff 0)⁻¹ * T.charpoly.coeff (i + 1)) • (T ^ i) v)
      = -(T.charpoly.coeff 0)⁻¹ • ∑ i ∈ range n, T.charpoly.coeff (i + 1) • (T ^ (i + 1)) v := by
    rw [map_sum, smul_sum]
    refine sum_congr rfl fun i _ => ?_
    rw [map_smul, mul_smul, pow_succ']
    rfl
  rw [h3, eq_neg_of_add_eq_zero_left h1]
  rw [Module.End.one_apply, smul_neg, neg_smul, neg_neg, smul_smul, inv_mul_cancel₀ hc, one_smul]

/-- If `T x - x` lies in an `r`-dimensional space, `r + 1` iterates suffice. -/
theorem krylov_low_rank (T : E →ₗ[ℝ] E) (hT : Function.Injective T) (R : Submodule ℝ E) {r : ℕ}
    (hR : finrank ℝ R ≤ r) (hTR : ∀ x, T x - x ∈ R) (v : E) :
    ∃ a : ℕ → ℝ, T (∑ i ∈ range (r + 1), a i • (T ^ i) v) = v := by
  let W : Submodule ℝ E := Submodule.span ℝ {v} ⊔ R
  have hv : v ∈ W := Submodule.mem_sup_left (Submodule.mem_span_singleton_self v)
  have hW : ∀ x ∈ W, T x ∈ W := by
    intro x hx
    have : T x = x + (T x - x) := by abel
    rw [this]
    exact W.add_mem hx (Submodule.mem_sup_right (hTR x))
  have hdim : finrank ℝ W ≤ r + 1 := by
    refine (Submodule.finrank_add_le_finrank_add_finrank _ _).trans ?_
    have := finrank_span_le_card (R := ℝ) ({v} : Set E)
    rw [Set.toFinset_singleton, card_singleton] at this
    omega
  let T' := T.restrict hW
  have hinj : Function.Injective T' := by
    intro x y h
    have := congrArg Subtype.val h
    exact Subtype.ext (hT this)
  obtain ⟨a, ha⟩ := krylov_full T' hinj ⟨v, hv⟩ hdim
  refine ⟨a, ?_⟩
  have h := congrArg W.subtype ha
  have hp : ∀ i, ((T' ^ i) ⟨v, hv⟩ : W).1 = (T ^ i) v := by
    intro i
    induction i with
    | zero => rfl
    | succ i ih =>
      rw [pow_succ', pow_succ', Module.End.mul_apply, Module.End.mul_apply, ← ih]
      rfl
  have hl : W.subtype (T' (∑ i ∈ range (r + 1), a i • (T' ^ i) ⟨v, hv⟩))
      = T (∑ i ∈ range (r + 1), a i • (T ^ i) v) := by
    change T (W.subtype _) = _
    rw [map_sum]
    congr 1
    refine sum_congr rfl fun i _ => ?_
    rw [map_smul, ← hp]
    rfl
  rw [← hl, h]
  rfl

end Dxss
