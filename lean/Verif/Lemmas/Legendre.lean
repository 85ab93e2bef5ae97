import Verif.Lemmas.TimePoly
import Verif.Lemmas.Interp
import Verif.Props.Observe

/-! # Discrete functions of time in the basis of Legendre polynomials -/

namespace Dxss
open Finset
variable {V : Type} [AddCommGroup V] [Module ℝ V]

/-- The Legendre polynomials on the unit interval. -/
def leg : ℕ → ℝ → ℝ
  | 0, _ => 1
  | 1, s => 2 * s - 1
  | 2, s => 6 * s ^ 2 - 6 * s + 1
  | 3, s => 20 * s ^ 3 - 30 * s ^ 2 + 12 * s - 1
  | _, _ => 0

theorem leg_cont (l : ℕ) : Continuous (leg l) := by
  rcases l with _ | _ | _ | _ | l <;> unfold leg <;> fun_prop

theorem int_six {f : ℝ → ℝ} {a b c d e g h r : ℝ}
    (hf : ∀ s, f s = a + b * s + c * s ^ 2 + d * s ^ 3 + e * s ^ 4 + g * s ^ 5 + h * s ^ 6)
    (hr : a + b / 2 + c / 3 + d / 4 + e / 5 + g / 6 + h / 7 = r) : ∫ s in (0:ℝ)..1, f s = r := by
  have hF : ∀ s ∈ Set.uIcc (0:ℝ) 1, HasDerivAt (fun s => a * s + b / 2 * s ^ 2 + c / 3 * s ^ 3 + d / 4 * s ^ 4 + e / 5 * s ^ 5
      + g / 6 * s ^ 6 + h / 7 * s ^ 7) (f s) s := by
    intro s _
    rw [hf s]
    have k : ∀ (n : ℕ) (c : ℝ), HasDerivAt (fun s : ℝ => c * s ^ n) (c * (n * s ^ (n - 1))) s := fun n c => (hasDerivAt_pow n s).const_mul c
    refine (((((((hasDerivAt_id s).const_mul a).add (k 2 (b / 2))).add (k 3 (c / 3))).add (k 4 (d / 4))).add (k 5 (e / 5))).add
      (k 6 (g / 6))).add (k 7 (h / 7)) |>.congr_deriv ?_
    push_cast; ring
  have hc : Continuous f := by rw [funext hf]; fun_prop
  rw [intervalIntegral.integral_eq_sub_of_hasDerivAt hF (hc.intervalIntegrable _ _), ← hr]
  ring

theorem leg_0_0 : ∫ s in (0:ℝ)..1, leg 0 s * leg 0 s = 1 / 1 :=
  int_six (fun s => by simp only [leg]; ring) (show ((1 : ℝ)) + (0) / 2 + (0) / 3 + (0) / 4 + (0) / 5 + (0) / 6 + (0) / 7 = _ by norm_num)
theorem leg_1_0 : ∫ s in (0:ℝ)..1, leg 1 s * leg 0 s = 0 :=
  int_six (fun s => by simp only [leg]; ring) (show ((-1 : ℝ)) + (2) / 2 + (0) / 3 + (0) / 4 + (0) / 5 + (0) / 6 + (0) / 7 = _ by norm_num)
theorem leg_1_1 : ∫ s in (0:ℝ)..1, leg 1 s * leg 1 s = 1 / 3 :=
  int_six (fun s => by simp only [leg]; ring) (show ((1 : ℝ)) + (-4) / 2 + (4) / 3 + (0) / 4 + (0) / 5 + (0) / 6 + (0) / 7 = _ by norm_num)
theorem leg_2_0 : ∫ s in (0:ℝ)..1, leg 2 s * leg 0 s = 0 :=
  int_six (fun s => by simp only [leg]; ring) (show ((1 : ℝ)) + (-6) / 2 + (6) / 3 + (0) / 4 + (0) / 5 + (0) / 6 + (0) / 7 = _ by norm_num)
theorem leg_2_1 : ∫ s in (0:ℝ)..1, leg 2 s * leg 1 s = 0 :=
  int_six (fun s => by simp only [leg]; ring) (show ((-1 : ℝ)) + (8) / 2 + (-18) / 3 + (12) / 4 + (0) / 5 + (0) / 6 + (0) / 7 = _ by norm_num)
theorem leg_2_2 : ∫ s in (0:ℝ)..1, leg 2 s * leg 2 s = 1 / 5 :=
  int_six (fun s => by simp only [leg]; ring) (show ((1 : ℝ)) + (-12) / 2 + (48) / 3 + (-72) / 4 + (36) / 5 + (0) / 6 + (0) / 7 = _ by norm_num)
theorem leg_3_0 : ∫ s in (0:ℝ)..1, leg 3 s * leg 0 s = 0 :=
  int_six (fun s => by simp only [leg]; ring) (show ((-1 : ℝ)) + (12) / 2 + (-30) / 3 + (20) / 4 + (0) / 5 + (0) / 6 + (0) / 7 = _ by norm_num)
theorem leg_3_1 : ∫ s in (0:ℝ)..1, leg 3 s * leg 1 s = 0 :=
  int_six (fun s => by simp only [leg]; ring) (show ((1 : ℝ)) + (-14) / 2 + (54) / 3 + (-80) / 4 + (40) / 5 + (0) / 6 + (0) / 7 = _ by norm_num)
theorem leg_3_2 : ∫ s in (0:ℝ)..1, leg 3 s * leg 2 s = 0 :=
  int_six (fun s => by simp only [leg]; ring) (show ((-1 : ℝ)) + (18) / 2 + (-108) / 3 + (272) / 4 + (-300) / 5 + (120) / 6 + (0) / 7 = _ by norm_num)
theorem leg_3_3 : ∫ s in (0:ℝ)..1, leg 3 s * leg 3 s = 1 / 7 :=
  int_six (fun s => by simp only [leg]; ring) (show ((1 : ℝ)) + (-24) / 2 + (204) / 3 + (-760) / 4 + (1380) / 5 + (-1200) / 6 + (400) / 7 = _ by norm_num)

/-- The integral of a positive form of a polynomial with given Legendre coefficients. -/
theorem int_leg (B : V →ₗ[ℝ] V →ₗ[ℝ] ℝ) (hs : ∀ u v, B u v = B v u) (b : ℕ → V) :
    ∫ s in (0:ℝ)..1, B (∑ l ∈ range 4, leg l s • b l) (∑ l ∈ range 4, leg l s • b l)
      = B (b 0) (b 0) + B (b 1) (b 1) / 3 + B (b 2) (b 2) / 5 + B (b 3) (b 3) / 7 := by
  have e : ∀ s, B (∑ l ∈ range 4, leg l s • b l) (∑ l ∈ range 4, leg l s • b l)
      = ∑ l ∈ range 4, ∑ m ∈ range 4, (leg l s * leg m s) * B (b l) (b m) := by
    intro s
    simp only [map_sum, LinearMap.sum_apply, map_smul, LinearMap.smul_apply, smul_eq_mul]
    refine sum_congr rfl fun l _ => ?_
    try rw [mul_sum]
    refine sum_congr rfl fun m _ => ?_
    rw [hs]; ring
  simp only [e]
  have hi : ∀ l m, IntervalIntegrable (fun s => leg l s * leg m s * B (b l) (b m)) MeasureTheory.volume (0:ℝ) 1 := fun l m =>
    (((leg_cont l).mul (leg_cont m)).mul continuous_const).intervalIntegrable _ _
  have h1 : ∫ s in (0:ℝ)..1, ∑ l ∈ range 4, ∑ m ∈ range 4, leg l s * leg m s * B (b l) (b m)
      = ∑ l ∈ range 4, ∫ s in (0:ℝ)..1, ∑ m ∈ range 4, leg l s * leg m s * B (b l) (b m) := by
    refine intervalIntegral.integral_finsetSum fun l _ => Continuous.intervalIntegrable ?_ _ _
    exact continuous_finsetSum _ fun m _ => ((leg_cont l).mul (leg_cont m)).mul continuous_const
  rw [h1]
  have e2 : ∀ l ∈ range 4, ∫ s in (0:ℝ)..1, ∑ m ∈ range 4, leg l s * leg m s * B (b l) (b m)
      = ∑ m ∈ range 4, (∫ s in (0:ℝ)..1, leg l s * leg m s) * B (b l) (b m) := by
    intro l _
    rw [intervalIntegral.integral_finsetSum fun m _ => hi l m]
    exact sum_congr rfl fun m _ => intervalIntegral.integral_mul_const _ _
  rw [sum_congr rfl e2]
  have sw : ∀ l m, ∫ s in (0:ℝ)..1, leg l s * leg m s = ∫ s in (0:ℝ)..1, leg m s * leg l s := fun l m =>
    intervalIntegral.integral_congr fun s _ => mul_comm _ _
  simp only [sum_range_succ, sum_range_zero, leg_0_0, leg_1_0, leg_1_1, leg_2_0, leg_2_1, leg_2_2, leg_3_0, leg_3_1, leg_3_2, leg_3_3,
    sw 0 1, sw 0 2, sw 0 3, sw 1 2, sw 1 3, sw 2 3]
  ring

/-- The Legendre coefficients of the derivative. -/
def legD (b : ℕ → V) : ℕ → V
  | 0 => (2:ℝ) • b 1 + (2:ℝ) • b 3
  | 1 => (6:ℝ) • b 2
  | 2 => (10:ℝ) • b 3
  | _ => 0

/-- The Legendre coefficients of a discrete function of time and of its derivative. -/
theorem leg_coeffs {q : ℕ} (hq : q ≤ 3) (F : ℕ → V) : ∃ b : ℕ → V, (∀ W : Submodule ℝ V, (∀ j ≤ q, F j ∈ W) → ∀ l, b l ∈ W) ∧
    (∀ s, comb (q + 1) (phi q) F s = ∑ l ∈ range 4, leg l s • b l) ∧
    ∀ s, comb (q + 1) (dphi q) F s = ∑ l ∈ range 4, leg l s • legD b l := by
  have hP : ∀ j, ∃ c0 c1 c2 c3 : ℝ, j ≤ q → (∀ s, phi q j s = c0 + c1 * s + c2 * s ^ 2 + c3 * s ^ 3) ∧
      ∀ s, dphi q j s = c1 + 2 * c2 * s + 3 * c3 * s ^ 2 := by
    intro j
    by_cases hj : j ≤ q
    · obtain ⟨P, h1, h2⟩ := phi_polynomial hq hj
      obtain ⟨R, hR, h3⟩ := phi_poly hq hj
      have hPR : P = R := Polynomial.funext fun s => by rw [← h1, h3]
      have hd : P.natDegree < 4 := by rw [hPR]; omega
      have hd' : P.derivative.natDegree < 3 := by
        have := Polynomial.natDegree_derivative_le P; omega
      refine ⟨P.coeff 0, P.coeff 1, P.coeff 2, P.coeff 3, fun _ => ⟨fun s => ?_, fun s => ?_⟩⟩
      · rw [h1, Polynomial.eval_eq_sum_range' hd]; simp [sum_range_succ]
      · rw [h2, Polynomial.eval_eq_sum_range' hd']; simp [sum_range_succ, Polynomial.coeff_derivative]; ring
    · exact ⟨0, 0, 0, 0, fun h => absurd h hj⟩
  choose c0 c1 c2 c3 hc using hP
  let α : ℕ → ℕ → ℝ := fun l j => (![c0 j + c1 j / 2 + c2 j / 3 + c3 j / 4, c1 j / 2 + c2 j / 2 + 9 * c3 j / 20, c2 j / 6 + c3 j / 4,
    c3 j / 20] : Fin 4 → ℝ) (Fin.ofNat 4 l)
  refine ⟨fun l => ∑ j ∈ range (q + 1), α l j • F j, fun W hW l =>
    W.sum_mem fun j hj => W.smul_mem _ (hW j (Nat.lt_succ_iff.1 (mem_range.1 hj))), fun s => ?_, fun s => ?_⟩
  · simp only [comb, smul_sum, smul_smul]
    rw [sum_comm]
    refine sum_congr rfl fun j hj => ?_
    rw [← sum_smul, (hc j (Nat.lt_succ_iff.1 (mem_range.1 hj))).1 s]
    congr 1
    simp [sum_range_succ, leg, α, Fin.ofNat]
    ring
  · simp only [comb, sum_range_succ (n := 3), sum_range_succ (n := 2), sum_range_succ (n := 1), sum_range_one, legD, smul_sum, smul_smul,
      smul_zero, add_zero, ← sum_add_distrib, ← add_smul]
    refine sum_congr rfl fun j hj => ?_
    rw [(hc j (Nat.lt_succ_iff.1 (mem_range.1 hj))).2 s]
    congr 1
    simp [leg, α, Fin.ofNat]
    ring

theorem int_four_le {c r : ℝ} {f g h k F : ℝ → ℝ} (hf : Continuous f) (hg : Continuous g) (hh : Continuous h) (hk : Continuous k)
    (hF : Continuous F) (hle : ∀ s, c * (r * f s + g s + h s + k s) ≤ F s) :
    c * (r * (∫ s in (0:ℝ)..1, f s) + (∫ s in (0:ℝ)..1, g s) + (∫ s in (0:ℝ)..1, h s) + ∫ s in (0:ℝ)..1, k s) ≤ ∫ s in (0:ℝ)..1, F s := by
  have i : ∀ {f : ℝ → ℝ}, Continuous f → IntervalIntegrable f MeasureTheory.volume 0 1 := fun h => h.intervalIntegrable _ _
  have e : ∫ s in (0:ℝ)..1, c * (r * f s + g s + h s + k s)
      = c * (r * (∫ s in (0:ℝ)..1, f s) + (∫ s in (0:ℝ)..1, g s) + (∫ s in (0:ℝ)..1, h s) + ∫ s in (0:ℝ)..1, k s) := by
    rw [intervalIntegral.integral_const_mul, intervalIntegral.integral_add (i (by fun_prop)) (i hk),
      intervalIntegral.integral_add (i (by fun_prop)) (i hh), intervalIntegral.integral_add (i (by fun_prop)) (i hg),
      intervalIntegral.integral_const_mul]
  rw [← e]
  exact intervalIntegral.integral_mono_on zero_le_one (i (by fun_prop)) (i hF) fun s _ => hle s

section
variable {S : Space V} {D : Disc V} {ind : V}

/-- The stabilisation of a discrete state on one slab, in Legendre coefficients. -/
theorem slab_leg (h : D.Ok) (hS : S.Psd ind) (hw : D.Weights) (n : ℕ) (U : Field V) {b d : ℕ → V}
    (hb : ∀ s, comb (D.q + 1) (phi D.q) (blk D.q n (U 0)) s = ∑ l ∈ range 4, leg l s • b l)
    (hb' : ∀ s, comb (D.q + 1) (dphi D.q) (blk D.q n (U 0)) s = ∑ l ∈ range 4, leg l s • legD b l)
    (hd : ∀ s, comb (D.q + 1) (phi D.q) (blk D.q n (U 1)) s = ∑ l ∈ range 4, leg l s • d l)
    (hd' : ∀ s, comb (D.q + 1) (dphi D.q) (blk D.q n (U 1)) s = ∑ l ∈ range 4, leg l s • legD d l) :
    D.dt * D.gPrimal * ∑ l ∈ range 4, (D.lam * S.pen (b l) (b l) + S.ghost (b l) (b l)
        + S.mass (d l - (1 / D.dt) • legD b l) (d l - (1 / D.dt) • legD b l)
        + S.h2 ((1 / D.dt) • legD d l - S.lap (b l)) ((1 / D.dt) • legD d l - S.lap (b l))) / (2 * l + 1)
      ≤ ∫ t in (n * D.dt)..((n + 1 : ℕ) * D.dt), eDens S D ind U n t := by
  have hdt := hw.dt
  have loc : ∀ s : ℝ, ((n : ℝ) * D.dt + s * D.dt - n * D.dt) / D.dt = s := by
    intro s; field_simp; ring
  have vloc : ∀ (q : ℕ) (F : ℤ → V) (s : ℝ), Spec.val q D.dt n F (n * D.dt + s * D.dt)
      = comb (q + 1) (phi q) (blk q n F) s := by
    intro q F s; simp only [Spec.val, comb, blk, loc]
  have dloc : ∀ (F : ℤ → V) (s : ℝ), Spec.valDt D.q D.dt n F (n * D.dt + s * D.dt)
      = (1 / D.dt) • comb (D.q + 1) (dphi D.q) (blk D.q n F) s := by
    intro F s; rw [valDt_eq h.hq, comb_smul_right]; simp only [comb, dphiT, loc]
  -- the integral over the slab, on the unit interval
  have e : (∫ t in (n * D.dt)..((n + 1 : ℕ) * D.dt), eDens S D ind U n t)
      = D.dt * ∫ s in (0:ℝ)..1, eDens S D ind U n (n * D.dt + s * D.dt) := by
    have := intervalIntegral.smul_integral_comp_add_mul (a := (0:ℝ)) (b := 1) (fun t => eDens S D ind U n t) D.dt (n * D.dt)
    simp only [smul_eq_mul, mul_zero, mul_one, add_zero] at this
    rw [show ((n + 1 : ℕ) : ℝ) * D.dt = n * D.dt + D.dt by push_cast; ring, ← this]
    congr 1
    exact intervalIntegral.integral_congr fun s _ => by rw [mul_comm s]
  have e1 : ∀ s, ∑ l ∈ range 4, leg l s • (d l - (1 / D.dt) • legD b l)
      = (∑ l ∈ range 4, leg l s • d l) - (1 / D.dt) • ∑ l ∈ range 4, leg l s • legD b l := by
    intro s
    rw [smul_sum, ← sum_sub_distrib]
    exact sum_congr rfl fun l _ => by rw [smul_sub, smul_comm]
  have e2 : ∀ s, ∑ l ∈ range 4, leg l s • ((1 / D.dt) • legD d l - S.lap (b l))
      = (1 / D.dt) • (∑ l ∈ range 4, leg l s • legD d l) - S.lap (∑ l ∈ range 4, leg l s • b l) := by
    intro s
    rw [smul_sum, map_sum, ← sum_sub_distrib]
    exact sum_congr rfl fun l _ => by rw [smul_sub, smul_comm, map_smul]
  have low : ∀ s, D.gPrimal * (D.lam * S.pen (∑ l ∈ range 4, leg l s • b l) (∑ l ∈ range 4, leg l s • b l)
      + S.ghost (∑ l ∈ range 4, leg l s • b l) (∑ l ∈ range 4, leg l s • b l)
      + S.mass (∑ l ∈ range 4, leg l s • (d l - (1 / D.dt) • legD b l)) (∑ l ∈ range 4, leg l s • (d l - (1 / D.dt) • legD b l))
      + S.h2 (∑ l ∈ range 4, leg l s • ((1 / D.dt) • legD d l - S.lap (b l))) (∑ l ∈ range 4, leg l s • ((1 / D.dt) • legD d l - S.lap (b l))))
      ≤ eDens S D ind U n (n * D.dt + s * D.dt) := by
    intro s
    simp only [eDens, dualAt, primalAt, vloc, dloc, hb, hb', hd, hd', Spec.primalStab, e1, e2]
    have n1 := mul_nonneg hw.data (hS.omega (∑ l ∈ range 4, leg l s • b l))
    have n2 := mul_nonneg hw.dual (dualStab_nonneg hS hw.lam (comb (D.qstar + 1) (phi D.qstar) (blk D.qstar n (U 2)) s)
      (comb (D.qstar + 1) (phi D.qstar) (blk D.qstar n (U 3)) s))
    linarith
  have cB : ∀ (B : V →ₗ[ℝ] V →ₗ[ℝ] ℝ) (g : ℕ → V), Continuous fun s => B (∑ l ∈ range 4, leg l s • g l) (∑ l ∈ range 4, leg l s • g l) := by
    intro B g
    simp only [map_sum, LinearMap.sum_apply, map_smul, LinearMap.smul_apply, smul_eq_mul]
    have := leg_cont
    fun_prop
  have hmono := int_four_le (cB S.pen b) (cB S.ghost b) (cB S.mass fun l => d l - (1 / D.dt) • legD b l)
    (cB S.h2 fun l => (1 / D.dt) • legD d l - S.lap (b l))
    ((continuous_eDens S D h ind U n).comp (by fun_prop : Continuous fun s : ℝ => (n : ℝ) * D.dt + s * D.dt)) low
  rw [int_leg _ S.pen_symm, int_leg _ S.ghost_symm, int_leg _ S.mass_symm, int_leg _ S.h2_symm] at hmono
  have := mul_le_mul_of_nonneg_left hmono hdt.le
  refine le_trans (le_of_eq ?_) (this.trans (by simp only [Function.comp_apply]; rw [← e]))
  simp only [sum_range_succ, sum_range_zero]
  push_cast
  ring

end

section
variable {B : V →ₗ[ℝ] V →ₗ[ℝ] ℝ} (h0 : ∀ v, 0 ≤ B v v) (hs : ∀ u v, B u v = B v u)
include h0 hs

theorem form_two (a b : V) : B (a + b) (a + b) ≤ 2 * (B a a + B b b) := by
  have := h0 (a - b)
  simp only [map_add, map_sub, LinearMap.add_apply, LinearMap.sub_apply, hs b a] at this ⊢
  linarith

theorem form_three (a b c : V) : B (a + b + c) (a + b + c) ≤ 3 * (B a a + B b b + B c c) := by
  have h1 := h0 (a - b); have h2 := h0 (a - c); have h3 := h0 (b - c)
  simp only [map_add, map_sub, LinearMap.add_apply, LinearMap.sub_apply, hs b a, hs c a, hs c b] at h1 h2 h3 ⊢
  linarith

theorem form_four (a b c d : V) : B (a + b + c + d) (a + b + c + d) ≤ 4 * (B a a + B b b + B c c + B d d) := by
  have h1 := form_two h0 hs (a + b) (c + d)
  have h2 := form_two h0 hs a b; have h3 := form_two h0 hs c d
  rw [← add_assoc] at h1
  linarith

omit h0 hs in
theorem form_smul (r : ℝ) (a : V) : B (r • a) (r • a) = r ^ 2 * B a a := by
  simp only [map_smul, LinearMap.smul_apply, smul_eq_mul]; ring

omit h0 hs in
theorem form_neg (a : V) : B (-a) (-a) = B a a := by simp
end

/-- The chain of elliptic equations for the Legendre coefficients of a discrete state. -/
theorem elliptic_chain {S : Space V} {ind : V} (hS : S.Psd ind) {lam c H dt E : ℝ} (hlam : 0 ≤ lam) (hdt : 0 < dt) (hc0 : 0 ≤ c) (hH0 : 0 ≤ H)
    (hH : ∀ v, S.h2 v v ≤ H * S.mass v v) {b d : ℕ → V}
    (hc : ∀ l, S.mass (b l) (b l) ≤ c * (lam * S.pen (b l) (b l) + S.ghost (b l) (b l) + S.h2 (S.lap (b l)) (S.lap (b l))))
    (hE : ∀ l < 4, lam * S.pen (b l) (b l) + S.ghost (b l) (b l)
        + S.mass (d l - (1 / dt) • legD b l) (d l - (1 / dt) • legD b l)
        + S.h2 ((1 / dt) • legD d l - S.lap (b l)) ((1 / dt) • legD d l - S.lap (b l)) ≤ E) :
    S.mass (b 0) (b 0) + S.mass (b 1) (b 1) + S.mass (b 2) (b 2) + S.mass (b 3) (b 3)
      ≤ c * E * (13 + 340 * (H / dt ^ 2) + c * (H / dt ^ 4) * (12528 + 115200 * (H / dt ^ 2))) := by
  have hs2 := S.h2_symm
  set r : ℕ → V := fun l => d l - (1 / dt) • legD b l with hr
  set t : ℕ → V := fun l => (1 / dt) • legD d l - S.lap (b l) with ht
  have pg : ∀ l, 0 ≤ lam * S.pen (b l) (b l) + S.ghost (b l) (b l) := fun l =>
    add_nonneg (mul_nonneg hlam (hS.pen _)) (hS.ghost _)
  have er : ∀ l < 4, S.mass (r l) (r l) ≤ E := fun l hl => by
    have := hE l hl; have := pg l; have := hS.h2 (t l)
    linarith
  have et : ∀ l < 4, lam * S.pen (b l) (b l) + S.ghost (b l) (b l) + S.h2 (t l) (t l) ≤ E := fun l hl => by
    have := hE l hl; have := hS.mass (r l)
    linarith
  have ep : ∀ l < 4, lam * S.pen (b l) (b l) + S.ghost (b l) (b l) ≤ E := fun l hl => by
    have := et l hl; have := hS.h2 (t l); linarith
  have et' : ∀ l < 4, S.h2 (t l) (t l) ≤ E := fun l hl => by
    have := et l hl; have := pg l; linarith
  have hE0 : 0 ≤ E := (pg 0).trans (ep 0 (by norm_num))
  set η := H / dt ^ 2 with hη
  have hη0 : 0 ≤ η := by positivity
  set κ := H / dt ^ 4 with hκ
  have hκ0 : 0 ≤ κ := by positivity
  -- the forms of scaled residuals
  have scale : ∀ (x : ℝ) (v : V), S.h2 ((x / dt) • v) ((x / dt) • v) ≤ x ^ 2 * (η * S.mass v v) := by
    intro x v
    rw [form_smul]
    have := mul_le_mul_of_nonneg_left (hH v) (sq_nonneg (x / dt))
    calc _ ≤ _ := this
      _ = _ := by rw [hη]; field_simp
  have scale2 : ∀ (x : ℝ) (v : V), S.h2 ((x / dt ^ 2) • v) ((x / dt ^ 2) • v) ≤ x ^ 2 * (κ * S.mass v v) := by
    intro x v
    rw [form_smul]
    have := mul_le_mul_of_nonneg_left (hH v) (sq_nonneg (x / dt ^ 2))
    calc _ ≤ _ := this
      _ = _ := by rw [hκ]; field_simp
  have m3 : S.mass (b 3) (b 3) ≤ c * E := by
    have l3 : S.lap (b 3) = -t 3 := by simp [ht, legD]
    have := hc 3
    rw [l3, form_neg] at this
    exact this.trans (mul_le_mul_of_nonneg_left (et 3 (by norm_num)) hc0)
  have m2 : S.mass (b 2) (b 2) ≤ c * E * (3 + 200 * η) := by
    have l2 : S.lap (b 2) = (10 / dt) • r 3 + -t 2 := by
      simp only [ht, hr, legD]; module
    have h1 := form_two hS.h2 hs2 ((10 / dt) • r 3) (-t 2)
    rw [← l2, form_neg] at h1
    have h2 := scale 10 (r 3)
    have h3 := mul_le_mul_of_nonneg_left (er 3 (by norm_num)) hη0
    refine (hc 2).trans ?_
    rw [mul_assoc]
    refine mul_le_mul_of_nonneg_left ?_ hc0
    have := ep 2 (by norm_num); have := et' 2 (by norm_num)
    linarith
  have m1 : S.mass (b 1) (b 1) ≤ c * E * (4 + 108 * η + 10800 * (c * κ)) := by
    have l1 : S.lap (b 1) = (6 / dt) • r 2 + (60 / dt ^ 2) • b 3 + -t 1 := by
      have : (60 / dt ^ 2) = (6 / dt) * (1 / dt) * 10 := by field_simp; norm_num
      rw [this]
      simp only [ht, hr, legD]; module
    have h1 := form_three hS.h2 hs2 ((6 / dt) • r 2) ((60 / dt ^ 2) • b 3) (-t 1)
    rw [← l1, form_neg] at h1
    have h2 := scale 6 (r 2); have h2' := scale2 60 (b 3)
    have h3 := mul_le_mul_of_nonneg_left (er 2 (by norm_num)) hη0
    have h3' := mul_le_mul_of_nonneg_left m3 hκ0
    refine (hc 1).trans ?_
    rw [mul_assoc]
    refine mul_le_mul_of_nonneg_left ?_ hc0
    have := ep 1 (by norm_num); have := et' 1 (by norm_num)
    nlinarith
  have m0 : S.mass (b 0) (b 0) ≤ c * E * (5 + 32 * η + 576 * (c * κ * (3 + 200 * η))) := by
    have l0 : S.lap (b 0) = (2 / dt) • r 1 + (2 / dt) • r 3 + (12 / dt ^ 2) • b 2 + -t 0 := by
      have : (12 / dt ^ 2) = (2 / dt) * (1 / dt) * 6 := by field_simp; norm_num
      rw [this]
      simp only [ht, hr, legD]; module
    have h1 := form_four hS.h2 hs2 ((2 / dt) • r 1) ((2 / dt) • r 3) ((12 / dt ^ 2) • b 2) (-t 0)
    rw [← l0, form_neg] at h1
    have h2 := scale 2 (r 1); have h2' := scale 2 (r 3); have h2'' := scale2 12 (b 2)
    have h3 := mul_le_mul_of_nonneg_left (er 1 (by norm_num)) hη0
    have h3' := mul_le_mul_of_nonneg_left (er 3 (by norm_num)) hη0
    have h3'' := mul_le_mul_of_nonneg_left m2 hκ0
    refine (hc 0).trans ?_
    rw [mul_assoc]
    refine mul_le_mul_of_nonneg_left ?_ hc0
    have := ep 0 (by norm_num); have := et' 0 (by norm_num)
    nlinarith
  nlinarith

end Dxss
