import Verif.Lemmas.Time
import Verif.Lemmas.Forms
import Verif.Spec.Variational
import Mathlib.MeasureTheory.Integral.IntervalIntegral.FundThmCalculus

/-! # From element matrices to time integrals -/

namespace Dxss
open Finset
variable {V : Type} [AddCommGroup V] [Module ℝ V]

/-- time combination of coefficients -/
def comb (n : ℕ) (f : ℕ → ℝ → ℝ) (F : ℕ → V) (t : ℝ) : V := ∑ j ∈ range n, f j t • F j

theorem bilin_comb (B : V →ₗ[ℝ] V →ₗ[ℝ] ℝ) (n m : ℕ) (f g : ℕ → ℝ → ℝ) (F G : ℕ → V) (t : ℝ) :
    B (comb n f F t) (comb m g G t)
      = ∑ j ∈ range n, ∑ k ∈ range m, (f j t * g k t) * B (F j) (G k) := by
  simp only [comb, map_sum, LinearMap.sum_apply, map_smul, LinearMap.smul_apply, smul_eq_mul, mul_sum]
  rw [sum_comm]
  exact sum_congr rfl fun j _ => sum_congr rfl fun k _ => by ring

theorem continuous_bilin_comb (B : V →ₗ[ℝ] V →ₗ[ℝ] ℝ) (n m : ℕ) (f g : ℕ → ℝ → ℝ) (F G : ℕ → V)
    (hf : ∀ j < n, Continuous (f j)) (hg : ∀ k < m, Continuous (g k)) :
    Continuous fun t => B (comb n f F t) (comb m g G t) := by
  simp only [bilin_comb]
  exact continuous_finsetSum _ fun j hj => continuous_finsetSum _ fun k hk =>
    ((hf j (mem_range.mp hj)).mul (hg k (mem_range.mp hk))).mul continuous_const

theorem integral_bilin_comb (B : V →ₗ[ℝ] V →ₗ[ℝ] ℝ) (n m : ℕ) (f g : ℕ → ℝ → ℝ) (F G : ℕ → V)
    (hf : ∀ j < n, Continuous (f j)) (hg : ∀ k < m, Continuous (g k)) (a b : ℝ) :
    ∫ t in a..b, B (comb n f F t) (comb m g G t)
      = ∑ j ∈ range n, ∑ k ∈ range m, (∫ t in a..b, f j t * g k t) * B (F j) (G k) := by
  simp only [bilin_comb]
  rw [intervalIntegral.integral_finsetSum]
  · refine sum_congr rfl fun j hj => ?_
    rw [intervalIntegral.integral_finsetSum]
    · refine sum_congr rfl fun k hk => ?_
      rw [intervalIntegral.integral_mul_const]
    · intro k hk
      exact (((hf j (mem_range.mp hj)).mul (hg k (mem_range.mp hk))).mul
        continuous_const).intervalIntegrable _ _
  · intro j hj
    exact (continuous_finsetSum _ fun k hk =>
      ((hf j (mem_range.mp hj)).mul (hg k (mem_range.mp hk))).mul
        continuous_const).intervalIntegrable _ _

/-- change of variables from a slab to the reference interval -/
theorem integral_slab (f : ℝ → ℝ) {dt : ℝ} (hdt : dt ≠ 0) (n : ℕ) :
    ∫ t in (n * dt)..((n + 1 : ℕ) * dt), f ((t - n * dt) / dt) = dt * ∫ s in (0:ℝ)..1, f s := by
  have h := intervalIntegral.integral_comp_div_sub (a := n * dt) (b := ((n + 1 : ℕ) : ℝ) * dt) f hdt
    (n * dt / dt)
  simp only [sub_div]
  rw [h, smul_eq_mul]
  congr 2
  · rw [sub_self]
  · rw [← sub_div]; push_cast; field_simp; ring

section
variable {q : ℕ} {dt : ℝ} {n : ℕ}

/-- basis in physical time -/
noncomputable def phiT (q : ℕ) (dt : ℝ) (n : ℕ) (j : ℕ) (t : ℝ) : ℝ := phi q j ((t - n * dt) / dt)
noncomputable def dphiT (q : ℕ) (dt : ℝ) (n : ℕ) (j : ℕ) (t : ℝ) : ℝ :=
  1 / dt * dphi q j ((t - n * dt) / dt)

theorem continuous_local (dt : ℝ) (n : ℕ) : Continuous fun t : ℝ => (t - n * dt) / dt :=
  (continuous_id.sub continuous_const).div_const _

theorem continuous_phiT (hq : q ≤ 3) : ∀ j < q + 1, Continuous (phiT q dt n j) := fun _ hj =>
  (continuous_phi hq (Nat.lt_succ_iff.mp hj)).comp (continuous_local dt n)
theorem continuous_dphiT (hq : q ≤ 3) : ∀ j < q + 1, Continuous (dphiT q dt n j) := fun _ hj =>
  continuous_const.mul ((continuous_dphi hq (Nat.lt_succ_iff.mp hj)).comp (continuous_local dt n))

theorem deriv_phiT (hq : q ≤ 3) {j : ℕ} (hj : j ≤ q) (t : ℝ) :
    deriv (fun s => phi q j ((s - n * dt) / dt)) t = dphiT q dt n j t := by
  have h1 : HasDerivAt (fun s : ℝ => (s - n * dt) / dt) (1 / dt) t :=
    ((hasDerivAt_id t).sub_const _).div_const _
  have := (hasDerivAt_phi hq hj ((t - n * dt) / dt)).comp t h1
  exact this.deriv.trans (mul_comm _ _)

/-- coefficients of slab `n` -/
def blk (q n : ℕ) (F : ℤ → V) (j : ℕ) : V := F (n * (q + 1) + j)

theorem val_eq (F : ℤ → V) : Spec.val q dt n F = comb (q + 1) (phiT q dt n) (blk q n F) := rfl
theorem valDt_eq (hq : q ≤ 3) (F : ℤ → V) :
    Spec.valDt q dt n F = comb (q + 1) (dphiT q dt n) (blk q n F) := by
  funext t
  refine sum_congr rfl fun j hj => ?_
  rw [deriv_phiT hq (Nat.lt_succ_iff.mp (mem_range.mp hj))]; rfl
end

section integrals
variable {q qstar : ℕ} (hq : q ≤ 3) (hs : qstar ≤ 3) {dt : ℝ} (hdt : dt ≠ 0) (n : ℕ)
  (B : V →ₗ[ℝ] V →ₗ[ℝ] ℝ) (F G : ℤ → V)
include hq hdt

theorem int_M_q_qs (hs : qstar ≤ 3) :
    ∫ t in (n * dt)..((n + 1 : ℕ) * dt), B (Spec.val q dt n F t) (Spec.val qstar dt n G t)
      = ∑ j ∈ range (q + 1), ∑ k ∈ range (qstar + 1),
          dt * ((elmatOf q qstar).M_q_qs k j : ℝ) * B (blk q n F j) (blk qstar n G k) := by
  rw [val_eq, val_eq, integral_bilin_comb B _ _ _ _ _ _ (continuous_phiT hq) (continuous_phiT hs)]
  refine sum_congr rfl fun j hj => sum_congr rfl fun k hk => ?_
  rw [M_q_qs_eq hq hs (Nat.lt_succ_iff.mp (mem_range.mp hk)) (Nat.lt_succ_iff.mp (mem_range.mp hj)),
    ← integral_slab (fun s => phi q j s * phi qstar k s) hdt n]
  rfl

theorem int_DM_q_qs (hs : qstar ≤ 3) :
    ∫ t in (n * dt)..((n + 1 : ℕ) * dt), B (Spec.valDt q dt n F t) (Spec.val qstar dt n G t)
      = ∑ j ∈ range (q + 1), ∑ k ∈ range (qstar + 1),
          ((elmatOf q qstar).DM_q_qs k j : ℝ) * B (blk q n F j) (blk qstar n G k) := by
  rw [valDt_eq hq, val_eq,
    integral_bilin_comb B _ _ _ _ _ _ (continuous_dphiT hq) (continuous_phiT hs)]
  refine sum_congr rfl fun j hj => sum_congr rfl fun k hk => ?_
  rw [DM_q_qs_eq hq hs (Nat.lt_succ_iff.mp (mem_range.mp hk)) (Nat.lt_succ_iff.mp (mem_range.mp hj))]
  have := integral_slab (fun s => dphi q j s * phi qstar k s) hdt n
  have e : (fun t => dphiT q dt n j t * phiT qstar dt n k t) = fun t => 1 / dt *
      (dphi q j ((t - n * dt) / dt) * phi qstar k ((t - n * dt) / dt)) := by
    funext t; unfold dphiT phiT; ring
  rw [e, intervalIntegral.integral_const_mul, this]
  field_simp

theorem int_M_q_q :
    ∫ t in (n * dt)..((n + 1 : ℕ) * dt), B (Spec.val q dt n F t) (Spec.val q dt n G t)
      = ∑ j ∈ range (q + 1), ∑ k ∈ range (q + 1),
          dt * ((elmatOf q qstar).M_q_q k j : ℝ) * B (blk q n F j) (blk q n G k) := by
  rw [val_eq, val_eq, integral_bilin_comb B _ _ _ _ _ _ (continuous_phiT hq) (continuous_phiT hq)]
  refine sum_congr rfl fun j hj => sum_congr rfl fun k hk => ?_
  rw [M_q_q_eq hq (Nat.lt_succ_iff.mp (mem_range.mp hk)) (Nat.lt_succ_iff.mp (mem_range.mp hj)),
    ← integral_slab (fun s => phi q j s * phi q k s) hdt n]
  rfl

theorem int_DM_q_q :
    ∫ t in (n * dt)..((n + 1 : ℕ) * dt), B (Spec.valDt q dt n F t) (Spec.val q dt n G t)
      = ∑ j ∈ range (q + 1), ∑ k ∈ range (q + 1),
          ((elmatOf q qstar).DM_q_q k j : ℝ) * B (blk q n F j) (blk q n G k) := by
  rw [valDt_eq hq, val_eq,
    integral_bilin_comb B _ _ _ _ _ _ (continuous_dphiT hq) (continuous_phiT hq)]
  refine sum_congr rfl fun j hj => sum_congr rfl fun k hk => ?_
  rw [DM_q_q_eq hq (Nat.lt_succ_iff.mp (mem_range.mp hk)) (Nat.lt_succ_iff.mp (mem_range.mp hj))]
  have := integral_slab (fun s => dphi q j s * phi q k s) hdt n
  have e : (fun t => dphiT q dt n j t * phiT q dt n k t) = fun t => 1 / dt *
      (dphi q j ((t - n * dt) / dt) * phi q k ((t - n * dt) / dt)) := by
    funext t; unfold dphiT phiT; ring
  rw [e, intervalIntegral.integral_const_mul, this]
  field_simp

theorem int_DM_q_q' :
    ∫ t in (n * dt)..((n + 1 : ℕ) * dt), B (Spec.val q dt n F t) (Spec.valDt q dt n G t)
      = ∑ j ∈ range (q + 1), ∑ k ∈ range (q + 1),
          ((elmatOf q qstar).DM_q_q j k : ℝ) * B (blk q n F j) (blk q n G k) := by
  have := int_DM_q_q (qstar := qstar) hq hdt n B.flip G F
  simp only [LinearMap.flip_apply] at this
  rw [this, sum_comm]

theorem int_DDM_q_q :
    ∫ t in (n * dt)..((n + 1 : ℕ) * dt), B (Spec.valDt q dt n F t) (Spec.valDt q dt n G t)
      = ∑ j ∈ range (q + 1), ∑ k ∈ range (q + 1),
          1 / dt * ((elmatOf q qstar).DDM_q_q k j : ℝ) * B (blk q n F j) (blk q n G k) := by
  rw [valDt_eq hq, valDt_eq hq,
    integral_bilin_comb B _ _ _ _ _ _ (continuous_dphiT hq) (continuous_dphiT hq)]
  refine sum_congr rfl fun j hj => sum_congr rfl fun k hk => ?_
  rw [DDM_q_q_eq hq (Nat.lt_succ_iff.mp (mem_range.mp hk)) (Nat.lt_succ_iff.mp (mem_range.mp hj))]
  have := integral_slab (fun s => dphi q j s * dphi q k s) hdt n
  have e : (fun t => dphiT q dt n j t * dphiT q dt n k t) = fun t => (1 / dt * (1 / dt)) *
      (dphi q j ((t - n * dt) / dt) * dphi q k ((t - n * dt) / dt)) := by
    funext t; unfold dphiT; ring
  rw [e, intervalIntegral.integral_const_mul, this]
  field_simp

omit hq in
theorem int_M_qs_qs (hs : qstar ≤ 3) :
    ∫ t in (n * dt)..((n + 1 : ℕ) * dt), B (Spec.val qstar dt n F t) (Spec.val qstar dt n G t)
      = ∑ j ∈ range (qstar + 1), ∑ k ∈ range (qstar + 1),
          dt * ((elmatOf q qstar).M_qs_qs k j : ℝ) * B (blk qstar n F j) (blk qstar n G k) := by
  rw [val_eq, val_eq, integral_bilin_comb B _ _ _ _ _ _ (continuous_phiT hs) (continuous_phiT hs)]
  refine sum_congr rfl fun j hj => sum_congr rfl fun k hk => ?_
  rw [M_qs_qs_eq hs (Nat.lt_succ_iff.mp (mem_range.mp hk)) (Nat.lt_succ_iff.mp (mem_range.mp hj)),
    ← integral_slab (fun s => phi qstar j s * phi qstar k s) hdt n]
  rfl
end integrals

end Dxss
