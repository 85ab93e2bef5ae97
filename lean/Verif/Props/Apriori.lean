import Verif.Props.Stability
import Verif.Spec.Approx

/-!
# Property C71: error estimate for the computed solution
-/

namespace Dxss
open Finset
set_option linter.unusedSectionVars false
variable {V : Type} [AddCommGroup V] [Module ℝ V]

theorem young_w (B : V →ₗ[ℝ] V →ₗ[ℝ] ℝ) (hB : ∀ v, 0 ≤ B v v) (hsym : ∀ u w, B u w = B w u) {θ : ℝ} (hθ : 0 < θ) (u w : V) :
    2 * B u w ≤ θ * B w w + 1 / θ * B u u := by
  have := bilin_young B hB hsym u (θ • w)
  simp only [map_smul, LinearMap.smul_apply, smul_eq_mul] at this
  have h2 : 1 / θ * (2 * (θ * B u w)) ≤ 1 / θ * (B u u + θ * (θ * B w w)) :=
    mul_le_mul_of_nonneg_left this (by positivity)
  have e1 : 1 / θ * (2 * (θ * B u w)) = 2 * B u w := by field_simp
  have e2 : 1 / θ * (B u u + θ * (θ * B w w)) = θ * B w w + 1 / θ * B u u := by field_simp; ring
  rwa [e1, e2] at h2

theorem young_half (B : V →ₗ[ℝ] V →ₗ[ℝ] ℝ) (hB : ∀ v, 0 ≤ B v v) (hsym : ∀ u w, B u w = B w u) (u w : V) :
    2 * B u w ≤ 1 / 2 * B w w + 2 * B u u := by
  have := young_w B hB hsym (by norm_num : (0:ℝ) < 1 / 2) u w
  norm_num at this ⊢
  linarith

theorem young_neg (B : V →ₗ[ℝ] V →ₗ[ℝ] ℝ) (hB : ∀ v, 0 ≤ B v v) (hsym : ∀ u w, B u w = B w u) (u w : V) :
    -(2 * B u w) ≤ 1 / 2 * B w w + 2 * B u u := by
  have := young_half B hB hsym (-u) w
  simp only [map_neg, LinearMap.neg_apply, neg_neg] at this
  linarith

theorem flux_young {S : Space V} {ind : V} (hS : S.Psd ind) {G : V → ℝ} (hG0 : ∀ v, 0 ≤ G v)
    (hG : ∀ v y, S.nit v y ^ 2 ≤ G v * S.pen y y) {θ : ℝ} (hθ : 0 < θ) (v y : V) :
    |2 * S.nit v y| ≤ θ * S.pen y y + 1 / θ * G v := by
  have hp := hS.pen y; have hg := hG0 v
  refine abs_le_of_sq_le_sq ?_ (by positivity)
  have e : θ * S.pen y y * (1 / θ * G v) = S.pen y y * G v := by field_simp
  nlinarith [hG v y, sq_nonneg (θ * S.pen y y - 1 / θ * G v)]

/-- At every time, the wave operator and the primal stabilisation of a discrete pair are bounded by its distance to a
solution. -/
theorem residual_le {S : Space V} {D : Disc V} {ind : V} (hS : S.Psd ind) (hp : D.Positive) (hlam : 0 < D.lam)
    {G : V → ℝ} (hG0 : ∀ v, 0 ≤ G v) (hG : ∀ v y, S.nit v y ^ 2 ≤ G v * S.pen y y) {u : Spec.Path V} {T : Set ℝ}
    {Y : Submodule ℝ V} (hu : Spec.WaveSolution S Y u T) (X W : Field V) (hW : ∀ i, W 2 i ∈ Y) (n : ℕ) {t : ℝ} (ht : t ∈ T) :
    -(2 * (waveAt S D n X W t + D.gPrimal * primalAt S D n X W t))
      ≤ 1 / 2 * (D.gDual * dualAt S D n W W t + D.gPrimal * primalAt S D n W W t) + 2 * Spec.distDens S D G u X n t := by
  have hgd := hp.dual; have hgp := hp.primal
  have vel := hu.vel t ht; have weak := hu.weak t ht _ (val_mem hW D.qstar D.dt n t); have str := hu.strong t ht
  have dir := hu.dirichlet t ht; have smo := hu.smooth t ht
  unfold waveAt dualAt primalAt Spec.distDens Spec.wave Spec.dualStab Spec.primalStab
  set x1 := Spec.val D.q D.dt n (X 0) t
  set x2 := Spec.val D.q D.dt n (X 1) t
  set dx1 := Spec.valDt D.q D.dt n (X 0) t
  set dx2 := Spec.valDt D.q D.dt n (X 1) t
  set w1 := Spec.val D.q D.dt n (W 0) t
  set w2 := Spec.val D.q D.dt n (W 1) t
  set dw1 := Spec.valDt D.q D.dt n (W 0) t
  set dw2 := Spec.valDt D.q D.dt n (W 1) t
  set y1 := Spec.val D.qstar D.dt n (W 2) t
  set y2 := Spec.val D.qstar D.dt n (W 3) t
  simp only
  -- dual part
  have hθ : 0 < D.gDual / 2 := by positivity
  have i1 : 1 / (D.gDual / 2) = 2 * (1 / D.gDual) := by field_simp
  have a1 := young_w S.mass hS.mass S.mass_symm hθ (u.du2 t - dx2) y1
  have a2 := young_w S.stiff hS.stiff S.stiff_symm hθ (u.u1 t - x1) y1
  have a3 := (neg_abs_le _).trans' (neg_le_neg (flux_young hS hG0 hG (by positivity : 0 < D.gDual / 2 * D.lam) (u.u1 t - x1) y1))
  have a4 := young_w S.mass hS.mass S.mass_symm hθ (u.du1 t - dx1 - (u.u2 t - x2)) y2
  have i2 : 1 / (D.gDual / 2 * D.lam) = 2 * (1 / D.gDual) * (1 / D.lam) := by field_simp
  rw [i1] at a1 a2 a4
  rw [i2] at a3
  have k1 : S.mass (u.du1 t - dx1 - (u.u2 t - x2)) y2 = - S.mass (dx1 - x2) y2 := by
    rw [vel, ← LinearMap.neg_apply, ← map_neg]; congr 2; abel
  have k2 := weak
  have k3 : S.mass (u.du2 t - dx2) y1 = S.mass (u.du2 t) y1 - S.mass dx2 y1 := by rw [map_sub, LinearMap.sub_apply]
  have k4 : S.stiff (u.u1 t - x1) y1 = S.stiff (u.u1 t) y1 - S.stiff x1 y1 := by rw [map_sub, LinearMap.sub_apply]
  have k5 : S.nit (u.u1 t - x1) y1 = S.nit (u.u1 t) y1 - S.nit x1 y1 := by rw [map_sub, LinearMap.sub_apply]
  have D1 : -(2 * (S.mass dx2 y1 + S.stiff x1 y1 - S.nit x1 y1 + S.mass (dx1 - x2) y2))
      ≤ 1 / 2 * (D.gDual * (S.mass y1 y1 + S.stiff y1 y1 + S.mass y2 y2 + D.lam * S.pen y1 y1))
        + 2 * (1 / D.gDual * (S.mass (u.du2 t - dx2) (u.du2 t - dx2) + S.stiff (u.u1 t - x1) (u.u1 t - x1)
          + 1 / D.lam * G (u.u1 t - x1)
          + S.mass (u.du1 t - dx1 - (u.u2 t - x2)) (u.du1 t - dx1 - (u.u2 t - x2)))) := by
    rw [k1] at a4
    rw [k3] at a1
    rw [k4] at a2
    rw [k5] at a3
    linarith only [a1, a2, a3, a4, k2]
  -- primal part
  have b1 := young_half S.pen hS.pen S.pen_symm (u.u1 t - x1) w1
  have b2 := young_half S.ghost hS.ghost S.ghost_symm (u.u1 t - x1) w1
  have b3 := young_half S.mass hS.mass S.mass_symm (u.u2 t - x2 - (u.du1 t - dx1)) (w2 - dw1)
  have b4 := young_half S.h2 hS.h2 S.h2_symm (u.du2 t - dx2 - S.lap (u.u1 t - x1)) (dw2 - S.lap w1)
  have m1 : S.pen (u.u1 t - x1) w1 = - S.pen x1 w1 := by rw [map_sub, LinearMap.sub_apply, dir, zero_sub]
  have m2 : S.ghost (u.u1 t - x1) w1 = - S.ghost x1 w1 := by rw [map_sub, LinearMap.sub_apply, smo, zero_sub]
  have m3 : S.mass (u.u2 t - x2 - (u.du1 t - dx1)) (w2 - dw1) = - S.mass (x2 - dx1) (w2 - dw1) := by
    rw [vel, ← LinearMap.neg_apply, ← map_neg]; congr 2; abel
  have m4 : S.h2 (u.du2 t - dx2 - S.lap (u.u1 t - x1)) (dw2 - S.lap w1) = - S.h2 (dx2 - S.lap x1) (dw2 - S.lap w1) := by
    have : u.du2 t - dx2 - S.lap (u.u1 t - x1) = (u.du2 t - S.lap (u.u1 t)) - (dx2 - S.lap x1) := by rw [map_sub]; abel
    rw [this, LinearMap.map_sub₂, str, zero_sub]
  rw [m1] at b1
  rw [m2] at b2
  rw [m3] at b3
  rw [m4] at b4
  have b1' := mul_le_mul_of_nonneg_left b1 hlam.le
  have D2 : -(2 * (D.lam * S.pen x1 w1 + S.ghost x1 w1 + S.mass (x2 - dx1) (w2 - dw1) + S.h2 (dx2 - S.lap x1) (dw2 - S.lap w1)))
      ≤ 1 / 2 * (D.lam * S.pen w1 w1 + S.ghost w1 w1 + S.mass (w2 - dw1) (w2 - dw1) + S.h2 (dw2 - S.lap w1) (dw2 - S.lap w1))
        + 2 * (D.lam * S.pen (u.u1 t - x1) (u.u1 t - x1) + S.ghost (u.u1 t - x1) (u.u1 t - x1)
          + S.mass (u.u2 t - x2 - (u.du1 t - dx1)) (u.u2 t - x2 - (u.du1 t - dx1))
          + S.h2 (u.du2 t - dx2 - S.lap (u.u1 t - x1)) (u.du2 t - dx2 - S.lap (u.u1 t - x1))) := by
    linarith only [b1', b2, b3, b4]
  have D3 := mul_le_mul_of_nonneg_left D2 hgp.le
  linarith only [D1, D3]

theorem val_comb (q : ℕ) (dt : ℝ) (n : ℕ) (F H : ℤ → V) (s c t : ℝ) :
    Spec.val q dt n (fun i => s • F i + c • H i) t = s • Spec.val q dt n F t + c • Spec.val q dt n H t := by
  simp only [Spec.val, smul_add, sum_add_distrib, smul_sum, smul_smul]
  congr 1 <;> exact sum_congr rfl fun j _ => by rw [mul_comm]

/-- The rule on products of two discrete functions. -/
theorem radau_pair {r : QuadRule} (hr : mkQuadRule "Gauss-Radau" 4 = .ok r) {q : ℕ} (hq : q ≤ 3) {dt : ℝ} (hdt : 0 < dt)
    {n : ℕ} {Q : (ℝ → ℝ) → ℝ} (hQ : RuleOnSlab r dt n Q) (B : V →ₗ[ℝ] V →ₗ[ℝ] ℝ) (hB : ∀ v, 0 ≤ B v v)
    (hsym : ∀ u w, B u w = B w u) (F H : ℤ → V) :
    2 * (Q (fun t => B (Spec.val q dt n F t) (Spec.val q dt n H t))
        - ∫ t in (n * dt)..((n + 1 : ℕ) * dt), B (Spec.val q dt n F t) (Spec.val q dt n H t))
      ≤ 4 * (2e-5) ^ 2 * (∫ t in (n * dt)..((n + 1 : ℕ) * dt), B (Spec.val q dt n F t) (Spec.val q dt n F t))
        + 1 / 4 * ∫ t in (n * dt)..((n + 1 : ℕ) * dt), B (Spec.val q dt n H t) (Spec.val q dt n H t) := by
  have cF : Continuous fun t => B (Spec.val q dt n F t) (Spec.val q dt n F t) := cont_vv hq hq _ _ _
  have cH : Continuous fun t => B (Spec.val q dt n H t) (Spec.val q dt n H t) := cont_vv hq hq _ _ _
  have cX : Continuous fun t => B (Spec.val q dt n F t) (Spec.val q dt n H t) := cont_vv hq hq _ _ _
  have key : ∀ s c : ℝ, |(s ^ 2 * Q (fun t => B (Spec.val q dt n F t) (Spec.val q dt n F t))
        + (2 * s * c * Q (fun t => B (Spec.val q dt n F t) (Spec.val q dt n H t))
        + c ^ 2 * Q (fun t => B (Spec.val q dt n H t) (Spec.val q dt n H t))))
      - (s ^ 2 * (∫ t in (n * dt)..((n + 1 : ℕ) * dt), B (Spec.val q dt n F t) (Spec.val q dt n F t))
        + (2 * s * c * (∫ t in (n * dt)..((n + 1 : ℕ) * dt), B (Spec.val q dt n F t) (Spec.val q dt n H t))
        + c ^ 2 * ∫ t in (n * dt)..((n + 1 : ℕ) * dt), B (Spec.val q dt n H t) (Spec.val q dt n H t)))|
      ≤ 2e-5 * (s ^ 2 * (∫ t in (n * dt)..((n + 1 : ℕ) * dt), B (Spec.val q dt n F t) (Spec.val q dt n F t))
        + (2 * s * c * (∫ t in (n * dt)..((n + 1 : ℕ) * dt), B (Spec.val q dt n F t) (Spec.val q dt n H t))
        + c ^ 2 * ∫ t in (n * dt)..((n + 1 : ℕ) * dt), B (Spec.val q dt n H t) (Spec.val q dt n H t))) := by
    intro s c
    have h := radau_slab_abs hr hq hdt hQ B hB hsym fun i => s • F i + c • H i
    have e : (fun t => B (Spec.val q dt n (fun i => s • F i + c • H i) t) (Spec.val q dt n (fun i => s • F i + c • H i) t))
        = fun t => s ^ 2 * B (Spec.val q dt n F t) (Spec.val q dt n F t)
          + (2 * s * c * B (Spec.val q dt n F t) (Spec.val q dt n H t)
          + c ^ 2 * B (Spec.val q dt n H t) (Spec.val q dt n H t)) := by
      funext t
      simp only [val_comb, map_add, map_smul, LinearMap.add_apply, LinearMap.smul_apply, smul_eq_mul,
        hsym (Spec.val q dt n H t) (Spec.val q dt n F t)]
      ring
    rw [e, int_add (continuous_const.fun_mul cF) ((continuous_const.fun_mul cX).fun_add (continuous_const.fun_mul cH)),
      int_add (continuous_const.fun_mul cX) (continuous_const.fun_mul cH), intervalIntegral.integral_const_mul,
      intervalIntegral.integral_const_mul, intervalIntegral.integral_const_mul] at h
    rwa [ruleOnSlab_add hQ, ruleOnSlab_add hQ, ruleOnSlab_mul hQ, ruleOnSlab_mul hQ, ruleOnSlab_mul hQ] at h
  have h1 := (abs_le.1 (key (8e-5) 1)).2
  have h2 := (abs_le.1 (key (8e-5) (-1))).1
  norm_num at h1 h2 ⊢
  linarith only [h1, h2]

/-- The load of a solution minus the form at a discrete pair, in terms of their distance. -/
theorem defect_le {S : Space V} {D : Disc V} (h : D.Ok) {ind : V} (hS : S.Psd ind) (hp : D.Positive) (hlam : 0 < D.lam)
    {G : V → ℝ} (hG0 : ∀ v, 0 ≤ G v) (hG : ∀ v y, S.nit v y ^ 2 ≤ G v * S.pen y y) {u : Spec.Path V}
    {Y : Submodule ℝ V} (hu : Spec.WaveSolution S Y u (Set.Icc 0 (D.N * D.dt))) {r : QuadRule}
    (hr : mkQuadRule "Gauss-Radau" 4 = .ok r) {Q : ℕ → (ℝ → ℝ) → ℝ} (hQ : ∀ n < D.N, RuleOnSlab r D.dt n (Q n))
    {X : Field V} (hX2 : ∀ i, X 2 i = 0) (hX3 : ∀ i, X 3 i = 0)
    (hint : ∀ n < D.N, IntervalIntegrable (Spec.distDens S D G u X n) MeasureTheory.volume (n * D.dt) ((n + 1 : ℕ) * D.dt))
    (W : Field V) (hW : ∀ i, W 2 i ∈ Y) :
    2 * (Spec.load S { D with sol := u.u1 } ind (u.u1 0) (u.u2 0) Q W - Spec.form S D ind false X W)
      ≤ 0.755 * Spec.energy S D ind W + 2 * Spec.dist S D ind G Q u X
        + 4 * (2e-5) ^ 2 * ∑ n ∈ range D.N, D.gData *
            Spec.slabInt D.dt n (fun t => S.omega ind (Spec.val D.q D.dt n (X 0) t) (Spec.val D.q D.dt n (X 0) t)) := by
  have hdt := hp.dt
  have hw := hp.weights
  have hgd := hp.dual
  have hx2 : ∀ n t, Spec.val D.qstar D.dt n (X 2) t = 0 := fun n t => by simp [Spec.val, hX2]
  have hx3 : ∀ n t, Spec.val D.qstar D.dt n (X 3) t = 0 := fun n t => by simp [Spec.val, hX3]
  have hload : Spec.load S { D with sol := u.u1 } ind (u.u1 0) (u.u2 0) Q W
      = ∑ n ∈ range D.N, (D.gData * Q n (fun t => S.omega ind (u.u1 t) (Spec.val D.q D.dt n (W 0) t))
        + if n = 0 then (if D.wellPosed then D.gJump * Spec.jumpForm S D.dt (u.u1 0) (u.u2 0) (Spec.val D.q D.dt 0 (W 0) 0)
            (Spec.val D.q D.dt 0 (W 1) 0) else 0) else 0) := by
    rw [Spec.load, sum_add_distrib]
    congr 1
    by_cases hN : 0 < D.N
    · rw [sum_ite_eq' (range D.N) 0, if_pos (mem_range.2 hN)]
      simp [hN]
    · obtain hN : D.N = 0 := by omega
      simp [hN]
  rw [hload, Spec.form, Spec.dist, energy_eq, ← sum_sub_distrib, mul_sum, mul_sum, mul_sum, mul_sum, ← sum_add_distrib,
    ← sum_add_distrib]
  refine sum_le_sum fun n hn => ?_
  have hn := mem_range.1 hn
  have hle : (n : ℝ) * D.dt ≤ (n + 1 : ℕ) * D.dt := by push_cast; nlinarith
  have hsub : Set.Icc ((n : ℝ) * D.dt) ((n + 1 : ℕ) * D.dt) ⊆ Set.Icc 0 (D.N * D.dt) := by
    have : ((n + 1 : ℕ) : ℝ) ≤ D.N := by exact_mod_cast hn
    exact Set.Icc_subset_Icc (by positivity) (mul_le_mul_of_nonneg_right this hdt.le)
  -- the integrand
  have cw := continuous_waveAt S h X W n
  have cp := continuous_primalAt S h X W n
  have cd := continuous_dualAt S h W W n
  have cpw := continuous_primalAt S h W W n
  have cx : Continuous fun t => S.omega ind (Spec.val D.q D.dt n (X 0) t) (Spec.val D.q D.dt n (W 0) t) := cont_vv h.hq h.hq _ _ _
  have cww : Continuous fun t => S.omega ind (Spec.val D.q D.dt n (W 0) t) (Spec.val D.q D.dt n (W 0) t) := cont_vv h.hq h.hq _ _ _
  have eI : (∫ t in (n * D.dt)..((n + 1 : ℕ) * D.dt), Spec.integrand S D ind X W n t)
      = (∫ t in (n * D.dt)..((n + 1 : ℕ) * D.dt), (waveAt S D n X W t + D.gPrimal * primalAt S D n X W t))
        + D.gData * ∫ t in (n * D.dt)..((n + 1 : ℕ) * D.dt),
            S.omega ind (Spec.val D.q D.dt n (X 0) t) (Spec.val D.q D.dt n (W 0) t) := by
    rw [← intervalIntegral.integral_const_mul, ← int_add (cw.fun_add (continuous_const.fun_mul cp)) (continuous_const.fun_mul cx)]
    congr 1
    funext t
    simp only [Spec.integrand, hx2, hx3, waveAt, primalAt, Spec.wave, Spec.dualStab, map_zero, LinearMap.zero_apply]
    ring
  have eE : (∫ t in (n * D.dt)..((n + 1 : ℕ) * D.dt), eDens S D ind W n t)
      = D.gData * (∫ t in (n * D.dt)..((n + 1 : ℕ) * D.dt), S.omega ind (Spec.val D.q D.dt n (W 0) t) (Spec.val D.q D.dt n (W 0) t))
        + ∫ t in (n * D.dt)..((n + 1 : ℕ) * D.dt), (D.gDual * dualAt S D n W W t + D.gPrimal * primalAt S D n W W t) := by
    rw [← intervalIntegral.integral_const_mul, ← int_add (continuous_const.fun_mul cww)
      ((continuous_const.fun_mul cd).fun_add (continuous_const.fun_mul cpw))]
    congr 1
    funext t
    unfold eDens
    ring
  have eR : -(2 * ∫ t in (n * D.dt)..((n + 1 : ℕ) * D.dt), (waveAt S D n X W t + D.gPrimal * primalAt S D n X W t))
      ≤ 1 / 2 * (∫ t in (n * D.dt)..((n + 1 : ℕ) * D.dt), (D.gDual * dualAt S D n W W t + D.gPrimal * primalAt S D n W W t))
        + 2 * Spec.slabInt D.dt n (Spec.distDens S D G u X n) := by
    have cA : Continuous fun t => 1 / 2 * (D.gDual * dualAt S D n W W t + D.gPrimal * primalAt S D n W W t) :=
      continuous_const.mul ((continuous_const.mul cd).add (continuous_const.mul cpw))
    rw [Spec.slabInt, ← intervalIntegral.integral_const_mul, ← intervalIntegral.integral_neg,
      ← intervalIntegral.integral_const_mul, ← intervalIntegral.integral_const_mul,
      ← intervalIntegral.integral_add (cA.intervalIntegrable _ _) ((hint n hn).const_mul 2)]
    refine intervalIntegral.integral_mono_on hle
      ((continuous_const.mul (cw.add (continuous_const.mul cp))).neg.intervalIntegrable _ _)
      ((cA.intervalIntegrable _ _).add ((hint n hn).const_mul 2)) fun t ht => ?_
    exact residual_le hS hp hlam hG0 hG hu X W hW n (hsub ht)
  -- the data
  have eQ : Q n (fun t => S.omega ind (u.u1 t) (Spec.val D.q D.dt n (W 0) t))
      = Q n (fun t => S.omega ind (u.u1 t - Spec.val D.q D.dt n (X 0) t) (Spec.val D.q D.dt n (W 0) t))
        + Q n (fun t => S.omega ind (Spec.val D.q D.dt n (X 0) t) (Spec.val D.q D.dt n (W 0) t)) := by
    rw [← ruleOnSlab_add (hQ n hn)]
    congr 1
    funext t
    simp
  have q1 : Q n (fun t => 2 * S.omega ind (u.u1 t - Spec.val D.q D.dt n (X 0) t) (Spec.val D.q D.dt n (W 0) t))
      ≤ Q n (fun t => 1 / 2 * S.omega ind (Spec.val D.q D.dt n (W 0) t) (Spec.val D.q D.dt n (W 0) t)
          + 2 * S.omega ind (u.u1 t - Spec.val D.q D.dt n (X 0) t) (u.u1 t - Spec.val D.q D.dt n (X 0) t)) :=
    ruleOnSlab_mono hr hdt (hQ n hn) fun t => young_half (S.omega ind) hS.omega (S.omega_symm ind) _ _
  rw [ruleOnSlab_add (hQ n hn), ruleOnSlab_mul (hQ n hn), ruleOnSlab_mul (hQ n hn), ruleOnSlab_mul (hQ n hn)] at q1
  have q2 := radau_slab hr h.hq hdt (hQ n hn) (S.omega ind) hS.omega (S.omega_symm ind) (W 0)
  have q3 := radau_pair hr h.hq hdt (hQ n hn) (S.omega ind) hS.omega (S.omega_symm ind) (X 0) (W 0)
  have qq : 2 * (Q n (fun t => S.omega ind (u.u1 t) (Spec.val D.q D.dt n (W 0) t))
        - ∫ t in (n * D.dt)..((n + 1 : ℕ) * D.dt), S.omega ind (Spec.val D.q D.dt n (X 0) t) (Spec.val D.q D.dt n (W 0) t))
      ≤ 0.755 * (∫ t in (n * D.dt)..((n + 1 : ℕ) * D.dt), S.omega ind (Spec.val D.q D.dt n (W 0) t) (Spec.val D.q D.dt n (W 0) t))
        + 2 * Q n (fun t => S.omega ind (u.u1 t - Spec.val D.q D.dt n (X 0) t) (u.u1 t - Spec.val D.q D.dt n (X 0) t))
        + 4 * (2e-5) ^ 2 * Spec.slabInt D.dt n (fun t => S.omega ind (Spec.val D.q D.dt n (X 0) t) (Spec.val D.q D.dt n (X 0) t)) := by
    rw [eQ, Spec.slabInt]
    linarith only [q1, q2, q3]
  have qq' := mul_le_mul_of_nonneg_left qq hw.data
  have rest0 : 0 ≤ ∫ t in (n * D.dt)..((n + 1 : ℕ) * D.dt), (D.gDual * dualAt S D n W W t + D.gPrimal * primalAt S D n W W t) :=
    intervalIntegral.integral_nonneg hle fun t _ => add_nonneg (mul_nonneg hw.dual (dualStab_nonneg hS hw.lam _ _))
      (mul_nonneg hw.primal (primalStab_nonneg hS hw.lam _ _ _ _))
  -- the bottom
  have jf : ∀ a b c d : V, 2 * Spec.jumpForm S D.dt a b c d
      ≤ 1 / 2 * Spec.jumpForm S D.dt c d c d + 2 * Spec.jumpForm S D.dt a b a b := by
    intro a b c d
    have y1 := young_half S.mass hS.mass S.mass_symm a c
    have y2 := young_half S.stiff hS.stiff S.stiff_symm a c
    have y3 := young_half S.mass hS.mass S.mass_symm b d
    have hi : 0 ≤ 1 / D.dt := by positivity
    unfold Spec.jumpForm
    have := mul_le_mul_of_nonneg_left y1 hi
    have := mul_le_mul_of_nonneg_left y2 hdt.le
    have := mul_le_mul_of_nonneg_left y3 hi
    linarith
  have bot : 2 * ((if n = 0 then (if D.wellPosed then D.gJump * Spec.jumpForm S D.dt (u.u1 0) (u.u2 0) (Spec.val D.q D.dt 0 (W 0) 0)
            (Spec.val D.q D.dt 0 (W 1) 0) else 0) else 0)
        - if n = 0 then Spec.initial S D X W else Spec.interface S D false X W n)
      ≤ 1 / 2 * eBot S D W n + 2 * (if n = 0 then
        if D.wellPosed then D.gJump * Spec.jumpForm S D.dt (u.u1 0 - Spec.val D.q D.dt 0 (X 0) 0) (u.u2 0 - Spec.val D.q D.dt 0 (X 1) 0)
          (u.u1 0 - Spec.val D.q D.dt 0 (X 0) 0) (u.u2 0 - Spec.val D.q D.dt 0 (X 1) 0) else 0
      else
        D.gJump * Spec.jumpForm S D.dt (Spec.jump D.q D.dt n (X 0)) (Spec.jump D.q D.dt n (X 1))
          (Spec.jump D.q D.dt n (X 0)) (Spec.jump D.q D.dt n (X 1))
        + if D.jumpsFw then (1 + D.eps) ^ 2 / (D.gDual * D.dt) *
            (S.mass (Spec.jump D.q D.dt n (X 0)) (Spec.jump D.q D.dt n (X 0))
              + S.mass (Spec.jump D.q D.dt n (X 1)) (Spec.jump D.q D.dt n (X 1)))
          else 0) := by
    by_cases hn0 : n = 0
    · simp only [eBot, Spec.initial, if_pos hn0]
      split
      · have := mul_le_mul_of_nonneg_left (jf (u.u1 0 - Spec.val D.q D.dt 0 (X 0) 0) (u.u2 0 - Spec.val D.q D.dt 0 (X 1) 0)
          (Spec.val D.q D.dt 0 (W 0) 0) (Spec.val D.q D.dt 0 (W 1) 0)) hw.jump
        have e : Spec.jumpForm S D.dt (u.u1 0 - Spec.val D.q D.dt 0 (X 0) 0) (u.u2 0 - Spec.val D.q D.dt 0 (X 1) 0)
            (Spec.val D.q D.dt 0 (W 0) 0) (Spec.val D.q D.dt 0 (W 1) 0)
            = Spec.jumpForm S D.dt (u.u1 0) (u.u2 0) (Spec.val D.q D.dt 0 (W 0) 0) (Spec.val D.q D.dt 0 (W 1) 0)
              - Spec.jumpForm S D.dt (Spec.val D.q D.dt 0 (X 0) 0) (Spec.val D.q D.dt 0 (X 1) 0)
                (Spec.val D.q D.dt 0 (W 0) 0) (Spec.val D.q D.dt 0 (W 1) 0) := by
          simp only [Spec.jumpForm, map_sub, LinearMap.sub_apply]; ring
        rw [e] at this
        linarith only [this]
      · norm_num
    · simp only [eBot, Spec.interface, if_neg hn0, Bool.false_eq_true, if_false, hx2, hx3, map_zero, LinearMap.zero_apply]
      set j1 := Spec.jump D.q D.dt n (X 0)
      set j2 := Spec.jump D.q D.dt n (X 1)
      set k1 := Spec.jump D.q D.dt n (W 0)
      set k2 := Spec.jump D.q D.dt n (W 1)
      set y1 := Spec.val D.qstar D.dt n (W 2) (n * D.dt)
      set y2 := Spec.val D.qstar D.dt n (W 3) (n * D.dt)
      have t1 := mul_le_mul_of_nonneg_left (jf (-j1) (-j2) k1 k2) hw.jump
      have e1 : Spec.jumpForm S D.dt (-j1) (-j2) k1 k2 = - Spec.jumpForm S D.dt j1 j2 k1 k2 := by
        simp only [Spec.jumpForm, map_neg, LinearMap.neg_apply]; ring
      have e2 : Spec.jumpForm S D.dt (-j1) (-j2) (-j1) (-j2) = Spec.jumpForm S D.dt j1 j2 j1 j2 := by
        simp only [Spec.jumpForm, map_neg, LinearMap.neg_apply]; ring
      rw [e1, e2] at t1
      split
      · have hθ : 0 < D.gDual * D.dt / 2 := by positivity
        have s1 := young_w S.mass hS.mass S.mass_symm hθ (-(1 + D.eps) • j1) y2
        have s2 := young_w S.mass hS.mass S.mass_symm hθ (-(1 + D.eps) • j2) y1
        simp only [map_smul, LinearMap.smul_apply, smul_eq_mul] at s1 s2
        have f : ∀ a : ℝ, 1 / (D.gDual * D.dt / 2) * (-(1 + D.eps) * (-(1 + D.eps) * a))
            = 2 * ((1 + D.eps) ^ 2 / (D.gDual * D.dt) * a) := by
          intro a; field_simp
        rw [f] at s1 s2
        linarith only [t1, s1, s2]
      · linarith only [t1]
  have bot0 := eBot_nonneg W hS hw n
  rw [eI, eE]
  linarith only [eR, qq', bot, rest0, bot0]

/-- C71: let the data be those of a solution `u` of the wave equation, and let the data (or initial values) observe
the states (C68).  Then the computed solution is as close to every discrete primal pair `xs` as `xs` is to `u`, up to
the inexactness of the quadrature weights (relative size `2e-5`) and the placeholder (`1e-20`). -/
theorem C71_error_estimate {interp : V →ₗ[ℝ] V} {a : Args V} {om om' : DataDomain V} {B : Built V}
    (hb : construct interp a om = (.ok B, om')) {C : Cfg V} (hC : C.Ok) (hB : C.OfBuilt B) (hS : C.S.Psd C.D.ind)
    (hp : C.D.Positive) (hlam : 0 < C.D.lam) (hN : 0 < C.D.N)
    {K : ℝ} (ho : C.Observable K) (hK : K * ((1e-20) ^ 2 * (C.D.qstar + 1) ^ 2) ≤ 1e-2 * (C.D.gDual * C.D.dt))
    {G : V → ℝ} (hG0 : ∀ v, 0 ≤ G v) (hG : ∀ v y, C.S.nit v y ^ 2 ≤ G v * C.S.pen y y)
    {u : Spec.Path V} (hu : Spec.WaveSolution C.S C.fe.dual u (Set.Icc 0 (C.D.N * C.D.dt))) (hdata : ∀ t, C.D.sol t = u.u1 t)
    {w₀ : World V} (h₀ : w₀.Fresh) (hf : w₀.NoFail) (ops ops' : List (Op V))
    (hops : ∀ op ∈ ops, ¬ op.WritesInitial) {r : Ref} {w₁ : World V}
    (hrhs : getSpacetimeRhs C (runOps C (.setupFE :: .setInitial (u.u1 0) (u.u2 0) :: ops) w₀) = (.ok r, w₁))
    {v₀ : World V} (g₀ : v₀.Fresh) (hops' : ∀ op ∈ ops', ¬ op.OtherFlag false) {A : Mat} {v₁ : World V}
    (hmat : getSpacetimeMatrix C false (runOps C ops' v₀) = (.ok A, v₁))
    {Q : ℕ → (ℝ → ℝ) → ℝ} (hQ : ∀ n < C.D.N, RuleOnSlab B.qr C.D.dt n (Q n))
    (x xs : Vec) (hx : ∀ d < C.full.size, A.mult x d = w₁.heap r d)
    (hX2 : ∀ i, C.full.field C.fe xs 2 i = 0) (hX3 : ∀ i, C.full.field C.fe xs 3 i = 0)
    (hint : ∀ n < C.D.N, IntervalIntegrable (Spec.distDens C.S C.D G u (C.full.field C.fe xs) n) MeasureTheory.volume
      (n * C.D.dt) ((n + 1 : ℕ) * C.D.dt)) :
    let X := C.full.field C.fe x
    let Xs := C.full.field C.fe xs
    Spec.energy C.S C.D C.D.ind (X - Xs)
      ≤ 3 * Spec.dist C.S C.D C.D.ind G Q u Xs
        + 6 * ((2e-5) ^ 2 * ∑ n ∈ range C.D.N, C.D.gData *
              Spec.slabInt C.D.dt n (fun t => C.S.omega C.D.ind (Spec.val C.D.q C.D.dt n (Xs 0) t) (Spec.val C.D.q C.D.dt n (Xs 0) t))
          + (1e-20) ^ 2 * (C.D.qstar + 1) ^ 2 / (C.D.gDual * C.D.dt) * C.S.mass (C.S.one - Xs 0 0) (C.S.one - Xs 0 0)) := by
  intro X Xs
  have hw := hp.weights
  have hr := (construct_qr hb).1
  have id := C65_error_identity hb hC hB hp.dt hu hdata h₀ hf ops ops' hops hrhs g₀ hops' hmat hQ x xs hx
  simp only at id
  change Spec.energy C.S C.D C.D.ind (X - Xs) = _ at id
  set W := Spec.flipDual (C.full.field C.fe x - C.full.field C.fe xs) with hW
  have hsub : X - Xs = C.full.field C.fe (x - xs) := ((fieldLin C.full C.fe).map_sub x xs).symm
  have hWd : ∀ i, W 2 i ∈ C.fe.dual := fun i => by
    have : W 2 i = -(C.full.field C.fe x 2 i - C.full.field C.fe xs 2 i) := by simp [hW, Spec.flipDual]
    rw [this]
    exact Submodule.neg_mem _ (Submodule.sub_mem _ (field_mem_dual _ _ _ _) (field_mem_dual _ _ _ _))
  rw [pathForm_solution C.S C.D hp.dt C.D.ind hu W hWd] at id
  have dl := defect_le hC.disc hS hp hlam hG0 hG hu hr hQ hX2 hX3 hint W hWd
  have small := placeholder_small hC hS hp ho hK hN (x - xs)
  rw [← hsub, abs_le] at small
  have hE0 := C14_energy_nonneg C.S C.D C.D.ind hS hw (X - Xs)
  have eW : Spec.energy C.S C.D C.D.ind W = Spec.energy C.S C.D C.D.ind (X - Xs) := by rw [hW, energy_flip]
  rw [eW] at dl
  have eload : Spec.load C.S { C.D with sol := u.u1 } C.D.ind (u.u1 0) (u.u2 0) Q W
      = ∑ n ∈ range C.D.N, C.D.gData * Q n (fun t => C.S.omega C.D.ind (u.u1 t) (Spec.val C.D.q C.D.dt n (W 0) t))
        + if C.D.wellPosed ∧ 0 < C.D.N then
            C.D.gJump * Spec.jumpForm C.S C.D.dt (u.u1 0) (u.u2 0) (Spec.val C.D.q C.D.dt 0 (W 0) 0) (Spec.val C.D.q C.D.dt 0 (W 1) 0)
          else 0 := rfl
  rw [eload] at dl
  simp only [mul_sub, sum_sub_distrib] at id dl
  have eW2 : W 2 0 = -(X - Xs) 2 0 := by simp [hW, Spec.flipDual, X, Xs]
  have ph : C.S.mass (C.S.one - X 0 0) (W 2 0)
      = C.S.mass (C.S.one - Xs 0 0) (W 2 0) + C.S.mass ((X - Xs) 0 0) ((X - Xs) 2 0) := by
    have : C.S.one - X 0 0 = (C.S.one - Xs 0 0) - (X - Xs) 0 0 := by simp
    rw [this, LinearMap.map_sub₂, eW2]
    simp only [map_neg, sub_neg_eq_add]
  change Spec.energy C.S C.D C.D.ind (X - Xs) = _ - _ + _ + 1e-20 * C.S.mass (C.S.one - X 0 0) (W 2 0) at id
  rw [ph] at id
  have hg : 0 < C.D.gDual * C.D.dt := mul_pos hp.dual hp.dt
  have hb2 := dual_bottom_energy hC.disc hS hp hN (X - Xs)
  have yy := young_w C.S.mass hS.mass C.S.mass_symm (θ := C.D.gDual * C.D.dt / (4 * (C.D.qstar + 1) ^ 2))
    (by positivity) ((1e-20 : ℝ) • (C.S.one - Xs 0 0)) (W 2 0)
  have eb : C.S.mass (W 2 0) (W 2 0) = C.S.mass ((X - Xs) 2 0) ((X - Xs) 2 0) := by
    rw [eW2]; simp only [map_neg, LinearMap.neg_apply, neg_neg]
  rw [eb] at yy
  simp only [map_smul, LinearMap.smul_apply, smul_eq_mul] at yy
  have y1 : C.D.gDual * C.D.dt / (4 * (C.D.qstar + 1) ^ 2) * C.S.mass ((X - Xs) 2 0) ((X - Xs) 2 0)
      ≤ 1 / 4 * Spec.energy C.S C.D C.D.ind (X - Xs) := by
    rw [div_mul_eq_mul_div, div_le_iff₀ (by positivity)]
    linarith
  have y2 : 1 / (C.D.gDual * C.D.dt / (4 * ((C.D.qstar : ℝ) + 1) ^ 2)) * (1e-20 * (1e-20 * C.S.mass (C.S.one - Xs 0 0) (C.S.one - Xs 0 0)))
      = 4 * ((1e-20) ^ 2 * (C.D.qstar + 1) ^ 2 / (C.D.gDual * C.D.dt) * C.S.mass (C.S.one - Xs 0 0) (C.S.one - Xs 0 0)) := by
    field_simp
  rw [y2] at yy
  linarith only [id, dl, small.1, small.2, yy, y1, hE0]

namespace Example

/-- Flux bound of the space of modes: the squares of the derivatives at the end points. -/
noncomputable def flux3 (v : V3) : ℝ := deriv (ι v).1 0 ^ 2 + deriv (ι v).1 1 ^ 2

theorem flux3_bound (v y : V3) : modeSpace.nit v y ^ 2 ≤ flux3 v * modeSpace.pen y y := by
  change (deriv (ι v).1 1 * (ι y).1 1 - deriv (ι v).1 0 * (ι y).1 0) ^ 2
    ≤ flux3 v * ((ι y).1 0 * (ι y).1 0 + (ι y).1 1 * (ι y).1 1)
  unfold flux3
  nlinarith [sq_nonneg (deriv (ι v).1 1 * (ι y).1 0 + deriv (ι v).1 0 * (ι y).1 1)]

theorem deriv_ι (v : V3) (x : ℝ) : deriv (ι v).1 x = v.2.1 + v.2.2 * (Real.cos (2 * Real.pi * x) * (2 * Real.pi)) := by
  have h : HasDerivAt (fun x : ℝ => v.1 + v.2.1 * x + v.2.2 * Real.sin (2 * Real.pi * x))
      (0 + v.2.1 * 1 + v.2.2 * (Real.cos (2 * Real.pi * x) * (2 * Real.pi * 1))) x :=
    (((hasDerivAt_const x v.1).add ((hasDerivAt_id x).const_mul _)).add
      (((hasDerivAt_id x).const_mul _).sin.const_mul _))
  have e : (ι v).1 = fun x : ℝ => v.1 + v.2.1 * x + v.2.2 * Real.sin (2 * Real.pi * x) := rfl
  rw [e, h.deriv]; ring

theorem bilin_cont (B : V3 →ₗ[ℝ] V3 →ₗ[ℝ] ℝ) {f g : ℝ → V3} (hf : Continuous f) (hg : Continuous g) :
    Continuous fun t => B (f t) (g t) := by
  have e : ∀ v : V3, v = v.1 • ((1, 0, 0) : V3) + v.2.1 • ((0, 1, 0) : V3) + v.2.2 • ((0, 0, 1) : V3) := by
    intro v; ext <;> simp
  have : (fun t => B (f t) (g t)) = fun t => B ((f t).1 • ((1, 0, 0) : V3) + (f t).2.1 • ((0, 1, 0) : V3) + (f t).2.2 • ((0, 0, 1) : V3))
      ((g t).1 • ((1, 0, 0) : V3) + (g t).2.1 • ((0, 1, 0) : V3) + (g t).2.2 • ((0, 0, 1) : V3)) := by
    funext t; rw [← e, ← e]
  rw [this]
  simp only [map_add, map_smul, LinearMap.add_apply, LinearMap.smul_apply, smul_eq_mul]
  fun_prop

theorem distDens_cont {D : Disc V3} (h : D.Ok) (X : Field V3) (n : ℕ) : Continuous (Spec.distDens modeSpace D flux3 wave3 X n) := by
  have cv : ∀ F : ℤ → V3, Continuous (Spec.val D.q D.dt n F) := by
    intro F
    exact continuous_finset_sum _ fun j hj => (continuous_phiT h.hq j (Finset.mem_range.1 hj)).smul continuous_const
  have cd : ∀ F : ℤ → V3, Continuous (Spec.valDt D.q D.dt n F) := by
    intro F
    rw [valDt_eq h.hq]
    exact continuous_finset_sum _ fun j hj => (continuous_dphiT h.hq j (Finset.mem_range.1 hj)).smul continuous_const
  have c1 : Continuous wave3.u1 := by unfold wave3; fun_prop
  have c2 : Continuous wave3.u2 := by unfold wave3; fun_prop
  have c3 : Continuous wave3.du1 := by unfold wave3; fun_prop
  have c4 : Continuous wave3.du2 := by unfold wave3; fun_prop
  have cl : Continuous lap3 := by
    change Continuous fun v : V3 => ((0:ℝ), (0:ℝ), -(2 * Real.pi) ^ 2 * v.2.2)
    fun_prop
  have k1 := c1.sub (cv (X 0))
  have k2 := c2.sub (cv (X 1))
  have k3 := c3.sub (cd (X 0))
  have k4 := c4.sub (cd (X 1))
  have cG : Continuous fun t => flux3 (wave3.u1 t - Spec.val D.q D.dt n (X 0) t) := by
    simp only [flux3, deriv_ι]
    have a := (continuous_snd.fst.comp k1)
    have b := (continuous_snd.snd.comp k1)
    exact ((a.add (b.mul continuous_const)).pow 2).add ((a.add (b.mul continuous_const)).pow 2)
  unfold Spec.distDens Spec.primalStab
  exact (continuous_const.mul ((((bilin_cont _ k4 k4).add (bilin_cont _ k1 k1)).add (continuous_const.mul cG)).add
    (bilin_cont _ (k3.sub k2) (k3.sub k2)))).add (continuous_const.mul ((((continuous_const.mul (bilin_cont _ k1 k1)).add
      (bilin_cont _ k1 k1)).add (bilin_cont _ (k2.sub k3) (k2.sub k3))).add
      (bilin_cont _ (k4.sub (cl.comp k1)) (k4.sub (cl.comp k1)))))

/-- C71 applies to the standing wave on two slabs, for every discrete primal pair. -/
example : ∃ B w₁ v₁ A x,
    getSpacetimeRhs (cfg3 B) (runOps (cfg3 B) [.setupFE, .setInitial (wave3.u1 0) (wave3.u2 0)] (freshWorld fun _ => 0))
      = (.ok .rhs, w₁) ∧
    getSpacetimeMatrix (cfg3 B) false (runOps (cfg3 B) [.setupFE] (freshWorld fun _ => 0)) = (.ok A, v₁) ∧
    (∀ d < (cfg3 B).full.size, A.mult x d = w₁.heap .rhs d) ∧
    ∃ Q : ℕ → (ℝ → ℝ) → ℝ, (∀ n, RuleOnSlab B.qr (1 / 2) n (Q n)) ∧ ∀ xs,
      let X := (cfg3 B).full.field fe3 x
      let Xs := (cfg3 B).full.field fe3 xs
      (∀ i, Xs 2 i = 0) → (∀ i, Xs 3 i = 0) →
      Spec.energy modeSpace B.D (1, 0, 0) (X - Xs)
        ≤ 3 * Spec.dist modeSpace B.D (1, 0, 0) flux3 Q wave3 Xs
          + 6 * ((2e-5) ^ 2 * ∑ n ∈ range B.D.N, B.D.gData *
                Spec.slabInt B.D.dt n (fun t => modeSpace.omega (1, 0, 0) (Spec.val B.D.q B.D.dt n (Xs 0) t)
                  (Spec.val B.D.q B.D.dt n (Xs 0) t))
            + (1e-20) ^ 2 * (B.D.qstar + 1) ^ 2 / (B.D.gDual * B.D.dt)
                * modeSpace.mass (modeSpace.one - Xs 0 0) (modeSpace.one - Xs 0 0)) := by
  obtain ⟨B, hb, hC, hO, hP, hi, hwp, hN, hdt, hqs, hgd, hgj, hlam, hsol⟩ := built3' wave3.u1
  obtain ⟨w₁, hr⟩ := getRhs_after (cfg3 B) (fun _ => 0) (wave3.u1 0) (wave3.u2 0) []
  obtain ⟨v₁, hm⟩ := getMatrix_ok (cfg3 B) false fun _ => 0
  have hi' : (cfg3 B).D.ind = (1, 0, 0) := hi
  have hS : (cfg3 B).S.Psd (cfg3 B).D.ind := by rw [hi']; exact modeSpace_psd
  obtain ⟨hsz, hU⟩ := C15_unique_solution hC hS modeSpace_definite hP hwp fe3_indep
    (freshWorld_fresh _) [.setupFE] (by simp [Op.OtherFlag]) hm
  obtain ⟨x, hx, -⟩ := hU (w₁.heap .rhs)
  rw [hsz] at hx
  choose Q hQ using exists_ruleOnSlab (construct_qr hb).1 (1 / 2)
  refine ⟨B, w₁, v₁, _, x, hr, hm, hx, Q, hQ, ?_⟩
  intro xs X Xs hX2 hX3
  have hN' : 0 < (cfg3 B).D.N := by change 0 < B.D.N; rw [hN]; norm_num
  have key := C71_error_estimate hb hC hO hS hP
    (by change 0 < B.D.lam; rw [hlam]; norm_num) hN'
    (C68_initial_values_observe hC hS modeSpace_definite hP hwp hN')
    (by
      change B.D.dt / B.D.gJump * ((1e-20) ^ 2 * ((B.D.qstar : ℝ) + 1) ^ 2) ≤ 1e-2 * (B.D.gDual * B.D.dt)
      rw [hdt, hqs, hgd, hgj]; norm_num)
    (G := flux3) (fun v => by unfold flux3; positivity) flux3_bound (wave3_solution _ _) (fun t => congrFun hsol t)
    (freshWorld_fresh _) (freshWorld_noFail _) [] [.setupFE] (by simp) hr (freshWorld_fresh _) (by simp [Op.OtherFlag]) hm
    (Q := Q) (fun n _ => by rw [show (cfg3 B).D.dt = 1 / 2 from hdt]; exact hQ n) x xs hx hX2 hX3
    (fun n _ => (distDens_cont hC.disc _ n).intervalIntegrable _ _)
  rw [hi'] at key
  exact key

end Example

end Dxss
