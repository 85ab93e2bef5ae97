import Verif.Props.Rhs

/-!
# The four-point rule on squares of discrete functions

For functions of degree at most three in time, the rule with the decimals of the source gives the integral of a
square up to a factor 1 ± 2e-5.
-/

namespace Dxss
open Finset
variable {V : Type} [AddCommGroup V] [Module ℝ V]

theorem Poly.eval_eq_sum (p : Poly) {n : ℕ} (h : p.length ≤ n) (t : ℝ) :
    p.eval t = ∑ k ∈ range n, (p.getD k 0 : ℝ) * t ^ k := by
  induction p generalizing n with
  | nil => simp
  | cons a p ih =>
    cases n with
    | zero => simp at h
    | succ n =>
      rw [sum_range_succ', Poly.eval_cons, ih (n := n) (by simpa using h), mul_sum]
      simp only [List.getD_cons_zero, List.getD_cons_succ, pow_zero, mul_one, pow_succ]
      rw [add_comm]
      congr 1
      exact sum_congr rfl fun k _ => by ring

theorem phi_cubic {q j : ℕ} (hq : q ≤ 3) (hj : j ≤ q) :
    ∃ c : ℕ → ℝ, ∀ t, phi q j t = ∑ k ∈ range 4, c k * t ^ k := by
  refine ⟨fun k => ((symPhi q j).getD k 0 : ℝ), fun t => ?_⟩
  rw [← eval_symPhi hq hj]
  refine Poly.eval_eq_sum _ ?_ t
  interval_cases q <;> interval_cases j <;> simp [symPhi, symBasis, Poly.mul, Poly.sub, Poly.neg, Poly.smul, Poly.add, Poly.C, Poly.X]

theorem comb_cubic {q : ℕ} (hq : q ≤ 3) (F : ℕ → V) :
    ∃ m : ℕ → V, ∀ s, comb (q + 1) (phi q) F s = comb 4 (fun k s => s ^ k) m s := by
  have : ∀ j, ∃ c : ℕ → ℝ, j ≤ q → ∀ t, phi q j t = ∑ k ∈ range 4, c k * t ^ k := by
    intro j
    by_cases hj : j ≤ q
    · obtain ⟨c, hc⟩ := phi_cubic hq hj
      exact ⟨c, fun _ => hc⟩
    · exact ⟨0, fun h => absurd h hj⟩
  choose c hc using this
  refine ⟨fun k => ∑ j ∈ range (q + 1), c j k • F j, fun s => ?_⟩
  simp only [comb, smul_sum]
  rw [sum_comm]
  refine sum_congr rfl fun j hj => ?_
  rw [hc j (Nat.lt_succ_iff.1 (mem_range.1 hj)), sum_smul]
  exact sum_congr rfl fun k _ => by rw [smul_smul, mul_comm]

section
variable (B : V →ₗ[ℝ] V →ₗ[ℝ] ℝ) (hB : ∀ v, 0 ≤ B v v) (hsym : ∀ u w, B u w = B w u) (m : ℕ → V)

theorem integral_cubic : ∫ s in (0:ℝ)..1, B (comb 4 (fun k s => s ^ k) m s) (comb 4 (fun k s => s ^ k) m s)
    = ∑ j ∈ range 4, ∑ k ∈ range 4, (1 / ((j : ℝ) + k + 1)) * B (m j) (m k) := by
  rw [integral_bilin_comb B _ _ _ _ _ _ (fun _ _ => continuous_pow _) (fun _ _ => continuous_pow _)]
  refine sum_congr rfl fun j _ => sum_congr rfl fun k _ => ?_
  congr 1
  simp only [← pow_add]
  rw [integral_pow]
  push_cast
  simp

include hB hsym in
/-- The rule on the reference interval. -/
theorem radau_cubic :
    |quadSum ([-1, -0.575319, 0.181066, 0.822824].map fun pt : ℝ => 0.5 * (1 - 0) * pt + 0.5 * (1 + 0))
      ([0.125, 0.657689, 0.776387, 0.440924].map fun w : ℝ => 0.5 * 1 * w)
      (fun s => B (comb 4 (fun k s => s ^ k) m s) (comb 4 (fun k s => s ^ k) m s))
      - ∫ s in (0:ℝ)..1, B (comb 4 (fun k s => s ^ k) m s) (comb 4 (fun k s => s ^ k) m s)|
      ≤ 2e-5 * ∫ s in (0:ℝ)..1, B (comb 4 (fun k s => s ^ k) m s) (comb 4 (fun k s => s ^ k) m s) := by
  rw [integral_cubic]
  -- Legendre coefficients
  set c0 := m 0 + (1/2 : ℝ) • m 1 + (1/3 : ℝ) • m 2 + (1/4 : ℝ) • m 3 with h0
  set c1 := (1/2 : ℝ) • m 1 + (1/2 : ℝ) • m 2 + (9/20 : ℝ) • m 3 with h1
  set c2 := (1/6 : ℝ) • m 2 + (1/4 : ℝ) • m 3 with h2
  set c3 := (1/20 : ℝ) • m 3 with h3
  have e3 : m 3 = (20 : ℝ) • c3 := by rw [h3, smul_smul]; norm_num
  have e2 : m 2 = (6 : ℝ) • c2 - (30 : ℝ) • c3 := by rw [h2, h3]; module
  have e1 : m 1 = (2 : ℝ) • c1 - (6 : ℝ) • c2 + (12 : ℝ) • c3 := by rw [h1, h2, h3]; module
  have e0 : m 0 = c0 - c1 + c2 - c3 := by rw [h0, h1, h2, h3]; module
  clear_value c0 c1 c2 c3
  have d : ∀ v w : V, 0 ≤ B v v + B w w + 2 * B v w ∧ 0 ≤ B v v + B w w - 2 * B v w := by
    intro v w
    have a := hB (v + w); have b := hB (v - w)
    simp only [map_add, map_sub, LinearMap.add_apply, LinearMap.sub_apply, hsym w v] at a b
    exact ⟨by linarith, by linarith⟩
  obtain ⟨a1, a1'⟩ := d c0 c1
  obtain ⟨a2, a2'⟩ := d c0 c2
  obtain ⟨a3, a3'⟩ := d c0 c3
  obtain ⟨a4, a4'⟩ := d c1 c2
  obtain ⟨a5, a5'⟩ := d c1 c3
  obtain ⟨a6, a6'⟩ := d c2 c3
  have b0 := hB c0; have b1 := hB c1; have b2 := hB c2; have b3 := hB c3
  simp only [quadSum, comb, List.map_cons, List.map_nil, List.zipWith_cons_cons, List.zipWith_nil_right, List.sum_cons,
    List.sum_nil, sum_range_succ, sum_range_zero, e0, e1, e2, e3, map_add, map_sub, map_smul, LinearMap.add_apply,
    LinearMap.sub_apply, LinearMap.smul_apply, smul_eq_mul, hsym c1 c0, hsym c2 c0, hsym c3 c0, hsym c2 c1, hsym c3 c1,
    hsym c3 c2, zero_add]
  rw [abs_le]
  norm_num
  constructor <;> linarith
end

/-- On a slab. -/
theorem radau_slab_abs {r : QuadRule} (hr : mkQuadRule "Gauss-Radau" 4 = .ok r) {q : ℕ} (hq : q ≤ 3) {dt : ℝ} (hdt : 0 < dt)
    {n : ℕ} {Q : (ℝ → ℝ) → ℝ} (hQ : RuleOnSlab r dt n Q) (B : V →ₗ[ℝ] V →ₗ[ℝ] ℝ) (hB : ∀ v, 0 ≤ B v v)
    (hsym : ∀ u w, B u w = B w u) (F : ℤ → V) :
    |Q (fun t => B (Spec.val q dt n F t) (Spec.val q dt n F t))
        - ∫ t in (n * dt)..((n + 1 : ℕ) * dt), B (Spec.val q dt n F t) (Spec.val q dt n F t)|
      ≤ 2e-5 * ∫ t in (n * dt)..((n + 1 : ℕ) * dt), B (Spec.val q dt n F t) (Spec.val q dt n F t) := by
  obtain ⟨m, hm⟩ := comb_cubic hq (blk q n F)
  have hv : ∀ t, Spec.val q dt n F t = comb (q + 1) (phi q) (blk q n F) ((t - n * dt) / dt) := fun t => rfl
  have e1 := integral_slab (fun s => B (comb (q + 1) (phi q) (blk q n F) s) (comb (q + 1) (phi q) (blk q n F) s)) hdt.ne' n
  simp only [hv]
  rw [e1, ← quadSum_slab (pts := _) (ws := _) hr (by obtain rfl := (Except.ok.inj hr).symm; rfl)
    (by obtain rfl := (Except.ok.inj hr).symm; rfl) hQ]
  have e : ∀ tau : ℝ, ((n * dt + dt * tau) - n * dt) / dt = tau := fun tau => by field_simp; ring
  simp only [e, hm]
  rw [← mul_sub, abs_mul, abs_of_pos hdt, mul_left_comm]
  exact mul_le_mul_of_nonneg_left (radau_cubic B hB hsym m) hdt.le

theorem slab_sq_nonneg {q : ℕ} {dt : ℝ} (hdt : 0 < dt) (n : ℕ) (B : V →ₗ[ℝ] V →ₗ[ℝ] ℝ) (hB : ∀ v, 0 ≤ B v v) (F : ℤ → V) :
    0 ≤ ∫ t in (n * dt)..((n + 1 : ℕ) * dt), B (Spec.val q dt n F t) (Spec.val q dt n F t) :=
  intervalIntegral.integral_nonneg (by push_cast; nlinarith) fun _ _ => hB _

theorem radau_slab {r : QuadRule} (hr : mkQuadRule "Gauss-Radau" 4 = .ok r) {q : ℕ} (hq : q ≤ 3) {dt : ℝ} (hdt : 0 < dt)
    {n : ℕ} {Q : (ℝ → ℝ) → ℝ} (hQ : RuleOnSlab r dt n Q) (B : V →ₗ[ℝ] V →ₗ[ℝ] ℝ) (hB : ∀ v, 0 ≤ B v v)
    (hsym : ∀ u w, B u w = B w u) (F : ℤ → V) :
    Q (fun t => B (Spec.val q dt n F t) (Spec.val q dt n F t))
      ≤ 1.01 * ∫ t in (n * dt)..((n + 1 : ℕ) * dt), B (Spec.val q dt n F t) (Spec.val q dt n F t) := by
  have h := abs_le.1 (radau_slab_abs hr hq hdt hQ B hB hsym F)
  have h0 := slab_sq_nonneg (q := q) hdt n B hB F
  linarith [h.2]

end Dxss
