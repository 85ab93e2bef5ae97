import Verif.Props.Forms
import Mathlib.LinearAlgebra.Dual.Lemmas

/-!
# Uniqueness on one slab

Vector-valued polynomials in time that vanish pointwise have zero coefficients; a discrete pair with
`u2 = ∂t u1`, `∂t u2 = L u1` and zero initial values vanishes.
-/

namespace Dxss
open Finset
variable {V : Type} [AddCommGroup V] [Module ℝ V]

theorem vec_poly_zero {n : ℕ} (a : ℕ → V)
    (h : ∀ s ∈ Set.Icc (0:ℝ) 1, ∑ k ∈ range n, s ^ k • a k = 0) : ∀ k < n, a k = 0 := by
  intro k hk
  rw [← Module.forall_dual_apply_eq_zero_iff ℝ (a k)]
  intro f
  set p : Polynomial ℝ := ∑ k ∈ range n, Polynomial.monomial k (f (a k)) with hp
  have hz : p = 0 := by
    refine Polynomial.eq_zero_of_infinite_isRoot p ((Set.Icc_infinite one_pos).mono ?_)
    intro s hs
    have := congrArg f (h s hs)
    simp only [map_sum, map_smul, smul_eq_mul, map_zero] at this
    simp only [Set.mem_setOf_eq, Polynomial.IsRoot, hp, Polynomial.eval_finsetSum,
      Polynomial.eval_monomial]
    rw [← this]
    exact sum_congr rfl fun _ _ => mul_comm _ _
  have : p.coeff k = f (a k) := by
    rw [hp, Polynomial.finsetSum_coeff, sum_eq_single k]
    · simp
    · intro b _ hb; simp [Polynomial.coeff_monomial, hb]
    · intro hk'; exact absurd (mem_range.2 hk) hk'
  rw [← this, hz, Polynomial.coeff_zero]

/-- Every modelled polynomial is a polynomial of Mathlib. -/
theorem Poly.exists_polynomial (p : Poly) : ∃ P : Polynomial ℝ, ∀ t, p.eval t = P.eval t := by
  induction p with
  | nil => exact ⟨0, fun t => by simp⟩
  | cons a p ih =>
    obtain ⟨P, hP⟩ := ih
    exact ⟨Polynomial.C (a : ℝ) + Polynomial.X * P, fun t => by simp [hP]⟩

theorem phi_polynomial {q j : ℕ} (hq : q ≤ 3) (hj : j ≤ q) : ∃ P : Polynomial ℝ,
    (∀ t, phi q j t = P.eval t) ∧ ∀ t, dphi q j t = P.derivative.eval t := by
  obtain ⟨P, hP⟩ := Poly.exists_polynomial (symPhi q j)
  have e : phi q j = fun t => P.eval t := funext fun t => by rw [← hP, eval_symPhi hq hj]
  refine ⟨P, fun t => congrFun e t, fun t => ?_⟩
  have h1 := hasDerivAt_phi hq hj t
  rw [e] at h1
  exact h1.unique (P.hasDerivAt t)

/-- The time basis written in monomials with a common length. -/
theorem phi_monomials {q : ℕ} (hq : q ≤ 3) : ∃ (K : ℕ) (c : ℕ → ℕ → ℝ), ∀ j ≤ q,
    (∀ t, phi q j t = ∑ k ∈ range K, c j k * t ^ k) ∧
    (∀ t, dphi q j t = ∑ k ∈ range K, (c j (k + 1) * (k + 1)) * t ^ k) := by
  have : ∀ j, ∃ P : Polynomial ℝ, j ≤ q →
      (∀ t, phi q j t = P.eval t) ∧ ∀ t, dphi q j t = P.derivative.eval t := by
    intro j
    by_cases hj : j ≤ q
    · obtain ⟨P, hP⟩ := phi_polynomial hq hj
      exact ⟨P, fun _ => hP⟩
    · exact ⟨0, fun h => absurd h hj⟩
  choose P hP using this
  refine ⟨(range (q + 1)).sup (fun j => (P j).natDegree) + 1, fun j k => (P j).coeff k,
    fun j hj => ?_⟩
  have hd : (P j).natDegree < (range (q + 1)).sup (fun j => (P j).natDegree) + 1 :=
    Nat.lt_succ_of_le (le_sup (f := fun j => (P j).natDegree) (mem_range.2 (Nat.lt_succ_of_le hj)))
  refine ⟨fun t => ?_, fun t => ?_⟩
  · rw [(hP j hj).1 t, Polynomial.eval_eq_sum_range' hd]
  · rw [(hP j hj).2 t, Polynomial.eval_eq_sum_range'
      (lt_of_le_of_lt ((Polynomial.natDegree_derivative_le _).trans (Nat.sub_le _ _)) hd)]
    simp only [Polynomial.coeff_derivative]

theorem comb_smul_right (n : ℕ) (f : ℕ → ℝ → ℝ) (F : ℕ → V) (a t : ℝ) :
    a • comb n f F t = comb n (fun j s => a * f j s) F t := by
  simp [comb, smul_sum, mul_smul]

/-- Nodal values determine the coefficients. -/
theorem comb_phi_zero {q : ℕ} (hq : q ≤ 3) (F : ℕ → V)
    (h : ∀ s ∈ Set.Icc (0:ℝ) 1, comb (q + 1) (phi q) F s = 0) : ∀ j ≤ q, F j = 0 := by
  intro j hj
  rcases Nat.eq_zero_or_pos q with rfl | h0
  · have := h 0 ⟨le_rfl, zero_le_one⟩
    obtain rfl : j = 0 := by omega
    simpa [comb, phi_0_0] using this
  · have hq0 : (0:ℝ) < q := by exact_mod_cast h0
    have := h (j / q) ⟨by positivity, by rw [div_le_one hq0]; exact_mod_cast hj⟩
    rw [comb, sum_eq_single j] at this
    · rw [C01_basis_nodal hq h0 hj hj] at this
      simpa using this
    · intro i hi hne
      rw [C01_basis_nodal hq h0 hj (Nat.lt_succ_iff.1 (mem_range.1 hi))]
      simp [hne.symm]
    · intro hn; exact absurd (mem_range.2 (Nat.lt_succ_of_le hj)) hn

/-- Uniqueness for the first-order system on the reference interval. -/
theorem slab_unique {q : ℕ} (hq : q ≤ 3) (L : V →ₗ[ℝ] V) (r : ℝ) (F G : ℕ → V)
    (h1 : ∀ s ∈ Set.Icc (0:ℝ) 1, comb (q + 1) (dphi q) F s = r • comb (q + 1) (phi q) G s)
    (h2 : ∀ s ∈ Set.Icc (0:ℝ) 1, comb (q + 1) (dphi q) G s = r • L (comb (q + 1) (phi q) F s))
    (hF : comb (q + 1) (phi q) F 0 = 0) (hG : comb (q + 1) (phi q) G 0 = 0) :
    (∀ j ≤ q, F j = 0) ∧ ∀ j ≤ q, G j = 0 := by
  obtain ⟨K, c, hc⟩ := phi_monomials hq
  let co : (ℕ → V) → ℕ → V := fun F k => ∑ j ∈ range (q + 1), c j k • F j
  have e0 : ∀ (F : ℕ → V) s, comb (q + 1) (phi q) F s = ∑ k ∈ range K, s ^ k • co F k := by
    intro F s
    simp only [co, comb, smul_sum]
    rw [sum_comm]
    refine sum_congr rfl fun j hj => ?_
    rw [(hc j (Nat.lt_succ_iff.1 (mem_range.1 hj))).1, sum_smul]
    exact sum_congr rfl fun k _ => by rw [smul_smul, mul_comm]
  have e1 : ∀ (F : ℕ → V) s, comb (q + 1) (dphi q) F s
      = ∑ k ∈ range K, s ^ k • (((k : ℝ) + 1) • co F (k + 1)) := by
    intro F s
    simp only [co, comb, smul_sum]
    rw [sum_comm]
    refine sum_congr rfl fun j hj => ?_
    rw [(hc j (Nat.lt_succ_iff.1 (mem_range.1 hj))).2, sum_smul]
    exact sum_congr rfl fun k _ => by rw [smul_smul, smul_smul]; congr 1; ring
  have r1 : ∀ k < K, ((k : ℝ) + 1) • co F (k + 1) - r • co G k = 0 := by
    refine vec_poly_zero _ fun s hs => ?_
    have := h1 s hs
    rw [e1, e0, ← sub_eq_zero] at this
    rw [← this, smul_sum, ← sum_sub_distrib]
    exact sum_congr rfl fun k _ => by rw [smul_sub, smul_comm (s ^ k) r]
  have r2 : ∀ k < K, ((k : ℝ) + 1) • co G (k + 1) - r • L (co F k) = 0 := by
    refine vec_poly_zero _ fun s hs => ?_
    have := h2 s hs
    rw [e1, e0, ← sub_eq_zero] at this
    rw [← this, map_sum, smul_sum, ← sum_sub_distrib]
    exact sum_congr rfl fun k _ => by rw [smul_sub, map_smul, smul_comm (s ^ k) r]
  have z0 : ∀ F : ℕ → V, comb (q + 1) (phi q) F 0 = 0 → 0 < K → co F 0 = 0 := by
    intro F hF hK
    rw [e0, sum_eq_single 0] at hF
    · simpa using hF
    · intro k _ hk; simp [hk]
    · intro hn; exact absurd (mem_range.2 hK) hn
  have key : ∀ k < K, co F k = 0 ∧ co G k = 0 := by
    intro k
    induction k with
    | zero => exact fun hK => ⟨z0 F hF hK, z0 G hG hK⟩
    | succ k ih =>
      intro hk
      obtain ⟨a, b⟩ := ih (by omega)
      have p1 := r1 k (by omega)
      have p2 := r2 k (by omega)
      rw [b, smul_zero, sub_zero] at p1
      rw [a, map_zero, smul_zero, sub_zero] at p2
      have hne : (k : ℝ) + 1 ≠ 0 := by positivity
      exact ⟨(smul_eq_zero.1 p1).resolve_left hne, (smul_eq_zero.1 p2).resolve_left hne⟩
  refine ⟨comb_phi_zero hq F fun s _ => ?_, comb_phi_zero hq G fun s _ => ?_⟩
  · rw [e0]; exact sum_eq_zero fun k hk => by rw [(key k (mem_range.1 hk)).1, smul_zero]
  · rw [e0]; exact sum_eq_zero fun k hk => by rw [(key k (mem_range.1 hk)).2, smul_zero]

/-! ### the value at the bottom of a slab is controlled by the integral over the slab -/

/-- Representer of the value at the bottom: `∑ w_j φ_j` integrates every discrete function of order
`q` to its value at `0`. -/
def bottomRep : ℕ → ℕ → ℚ
  | 0, 0 => 1
  | 1, 0 => 4
  | 1, 1 => -2
  | 2, 0 => 9
  | 2, 1 => -3/2
  | 2, 2 => 3
  | 3, 0 => 16
  | 3, 1 => -68/27
  | 3, 2 => 32/27
  | 3, 3 => -4
  | _, _ => 0

theorem bottomRep_zero {q : ℕ} (hq : q ≤ 3) : bottomRep q 0 = (q + 1) ^ 2 := by
  interval_cases q <;> norm_num [bottomRep]

theorem bottomRep_spec {q k : ℕ} (hq : q ≤ 3) (hk : k ≤ q) :
    ∑ j ∈ range (q + 1), bottomRep q j * Poly.integrate01 (Poly.mul (symPhi q j) (symPhi q k))
      = if k = 0 then 1 else 0 := by
  interval_cases q <;> interval_cases k <;>
    norm_num [sum_range_succ, bottomRep, symPhi, symBasis, Poly.mul, Poly.sub, Poly.neg, Poly.smul,
      Poly.add, Poly.C, Poly.X, Poly.integrate01, Poly.integFrom]

theorem int_phi_phi {q : ℕ} (hq : q ≤ 3) {dt : ℝ} (hdt : dt ≠ 0) (n : ℕ) {j k : ℕ} (hj : j ≤ q)
    (hk : k ≤ q) : ∫ t in (n * dt)..((n + 1 : ℕ) * dt), phiT q dt n j t * phiT q dt n k t
      = dt * (Poly.integrate01 (Poly.mul (symPhi q j) (symPhi q k)) : ℚ) := by
  rw [integ_mul _ _ _ _ (eval_symPhi hq hj) (eval_symPhi hq hk),
    ← integral_slab (fun s => phi q j s * phi q k s) hdt n]
  rfl

theorem int_phi_rep {q : ℕ} (hq : q ≤ 3) {dt : ℝ} (hdt : dt ≠ 0) (n : ℕ) {k : ℕ} (hk : k ≤ q) :
    ∑ j ∈ range (q + 1), (bottomRep q j : ℝ)
        * (∫ t in (n * dt)..((n + 1 : ℕ) * dt), phiT q dt n j t * phiT q dt n k t)
      = if k = 0 then dt else 0 := by
  have h := congrArg (fun x : ℚ => dt * (x : ℝ)) (bottomRep_spec hq hk)
  simp only [Rat.cast_sum, Rat.cast_mul, mul_sum] at h
  have e : dt * (((if k = 0 then 1 else 0 : ℚ)) : ℝ) = if k = 0 then dt else 0 := by
    split <;> simp
  rw [← e, ← h]
  refine sum_congr rfl fun j hj => ?_
  rw [int_phi_phi hq hdt n (Nat.lt_succ_iff.1 (mem_range.1 hj)) hk]
  ring

/-- The energy of the value at the bottom is at most `(q+1)^2/dt` times the integral of the energy
over the slab. -/
theorem bottom_control {q : ℕ} (hq : q ≤ 3) {dt : ℝ} (hdt : 0 < dt) (n : ℕ)
    (B : V →ₗ[ℝ] V →ₗ[ℝ] ℝ) (hB : ∀ v, 0 ≤ B v v) (hsym : ∀ u w, B u w = B w u) (F : ℤ → V) :
    dt / (q + 1) ^ 2 * B (F (n * (q + 1))) (F (n * (q + 1)))
      ≤ ∫ t in (n * dt)..((n + 1 : ℕ) * dt), B (Spec.val q dt n F t) (Spec.val q dt n F t) := by
  set I : ℕ → ℕ → ℝ := fun j k =>
    ∫ t in (n * dt)..((n + 1 : ℕ) * dt), phiT q dt n j t * phiT q dt n k t with hI
  have hIs : ∀ j k, I j k = I k j := fun j k => by simp only [hI, mul_comm]
  set w : ℕ → ℝ := fun j => (bottomRep q j : ℝ) with hw
  set F0 := F (n * (q + 1)) with hF0
  have hF0' : blk q n F 0 = F0 := by simp [blk, hF0]
  set l : ℝ := 1 / (q + 1) ^ 2 with hl
  have hw0 : w 0 = (q + 1) ^ 2 := by simp only [hw, bottomRep_zero hq]; push_cast; ring
  have hrep : ∀ k ∈ range (q + 1), ∑ j ∈ range (q + 1), I j k * w j = if k = 0 then dt else 0 := by
    intro k hk
    rw [← int_phi_rep hq hdt.ne' n (Nat.lt_succ_iff.1 (mem_range.1 hk))]
    exact sum_congr rfl fun j _ => mul_comm _ _
  have hlin : ∀ (g : ℕ → ℝ), ∑ j ∈ range (q + 1), ∑ k ∈ range (q + 1), I j k * w j * g k
      = dt * g 0 := by
    intro g
    rw [sum_comm]
    have : ∀ k ∈ range (q + 1), ∑ j ∈ range (q + 1), I j k * w j * g k
        = if k = 0 then dt * g 0 else 0 := by
      intro k hk
      rw [← sum_mul, hrep k hk]
      split
      · rename_i h0; rw [h0]
      · rw [zero_mul]
    rw [sum_congr rfl this, sum_ite_eq' (range (q + 1)) 0]
    simp
  have hlin' : ∀ (g : ℕ → ℝ), ∑ j ∈ range (q + 1), ∑ k ∈ range (q + 1), I j k * w k * g j
      = dt * g 0 := by
    intro g
    rw [← hlin g, sum_comm]
    exact sum_congr rfl fun j _ => sum_congr rfl fun k _ => by rw [hIs]
  have hpos : 0 ≤ ∫ t in (n * dt)..((n + 1 : ℕ) * dt),
      B (comb (q + 1) (phiT q dt n) (fun j => blk q n F j - (l * w j) • F0) t)
        (comb (q + 1) (phiT q dt n) (fun j => blk q n F j - (l * w j) • F0) t) :=
    intervalIntegral.integral_nonneg (by push_cast; nlinarith) fun t _ => hB _
  rw [integral_bilin_comb B _ _ _ _ _ _ (continuous_phiT hq) (continuous_phiT hq)] at hpos
  have hexp : ∑ j ∈ range (q + 1), ∑ k ∈ range (q + 1), I j k
        * B (blk q n F j - (l * w j) • F0) (blk q n F k - (l * w k) • F0)
      = (∑ j ∈ range (q + 1), ∑ k ∈ range (q + 1), I j k * B (blk q n F j) (blk q n F k))
        - l * (∑ j ∈ range (q + 1), ∑ k ∈ range (q + 1), I j k * w k * B (blk q n F j) F0)
        - l * (∑ j ∈ range (q + 1), ∑ k ∈ range (q + 1), I j k * w j * B F0 (blk q n F k))
        + l ^ 2 * (∑ j ∈ range (q + 1), ∑ k ∈ range (q + 1), I j k * w j * (w k * B F0 F0)) := by
    simp only [mul_sum, ← sum_sub_distrib, ← sum_add_distrib]
    refine sum_congr rfl fun j _ => sum_congr rfl fun k _ => ?_
    simp only [map_sub, map_smul, LinearMap.sub_apply, LinearMap.smul_apply, smul_eq_mul]
    ring
  change 0 ≤ ∑ j ∈ range (q + 1), ∑ k ∈ range (q + 1), I j k
        * B (blk q n F j - (l * w j) • F0) (blk q n F k - (l * w k) • F0) at hpos
  rw [hexp, hlin' (fun j => B (blk q n F j) F0), hlin (fun k => B F0 (blk q n F k)),
    hlin (fun k => w k * B F0 F0)] at hpos
  simp only [hF0', hw0] at hpos
  rw [val_eq, integral_bilin_comb B _ _ _ _ _ _ (continuous_phiT hq) (continuous_phiT hq)]
  change _ ≤ ∑ j ∈ range (q + 1), ∑ k ∈ range (q + 1), I j k * B (blk q n F j) (blk q n F k)
  have hq1 : ((q : ℝ) + 1) ^ 2 ≠ 0 := by positivity
  have e : l ^ 2 * (dt * (((q : ℝ) + 1) ^ 2 * B F0 F0)) = l * (dt * B F0 F0) := by
    rw [hl]; field_simp
  rw [e] at hpos
  have e2 : dt / ((q : ℝ) + 1) ^ 2 * B F0 F0 = l * (dt * B F0 F0) := by rw [hl]; ring
  rw [e2]; linarith

end Dxss
