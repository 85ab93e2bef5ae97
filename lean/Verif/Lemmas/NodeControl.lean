import Verif.Lemmas.Unique

/-!
# The values of a discrete function at the time nodes are controlled by its integral over the slab
-/

namespace Dxss
open Finset
variable {V : Type} [AddCommGroup V] [Module ℝ V]

/-- Representer of the value at node `i`: `∑ j, nodeRep q i j • φ_j` integrates every discrete function of order `q` to its
value at node `i`. -/
def nodeRep : ℕ → ℕ → ℕ → ℚ
  | 0, 0, 0 => 1
  | 1, 0, 0 => 4
  | 1, 0, 1 => -2
  | 1, 1, 0 => -2
  | 1, 1, 1 => 4
  | 2, 0, 0 => 9
  | 2, 0, 1 => -3/2
  | 2, 0, 2 => 3
  | 2, 1, 0 => -3/2
  | 2, 1, 1 => 9/4
  | 2, 1, 2 => -3/2
  | 2, 2, 0 => 3
  | 2, 2, 1 => -3/2
  | 2, 2, 2 => 9
  | 3, 0, 0 => 16
  | 3, 0, 1 => -68/27
  | 3, 0, 2 => 32/27
  | 3, 0, 3 => -4
  | 3, 1, 0 => -68/27
  | 3, 1, 1 => 2224/729
  | 3, 1, 2 => 44/729
  | 3, 1, 3 => 32/27
  | 3, 2, 0 => 32/27
  | 3, 2, 1 => 44/729
  | 3, 2, 2 => 2224/729
  | 3, 2, 3 => -68/27
  | 3, 3, 0 => -4
  | 3, 3, 1 => 32/27
  | 3, 3, 2 => -68/27
  | 3, 3, 3 => 16
  | _, _, _ => 0

theorem nodeRep_diag {q i : ℕ} (hq : q ≤ 3) (hi : i ≤ q) : 0 < nodeRep q i i ∧ nodeRep q i i ≤ (q + 1) ^ 2 := by
  interval_cases q <;> interval_cases i <;> norm_num [nodeRep]

/-- The time mass matrix of order 3. -/
def mass3 : ℕ → ℕ → ℚ
  | 0, 0 => 8/105 | 0, 1 => 33/560 | 0, 2 => -3/140 | 0, 3 => 19/1680
  | 1, 0 => 33/560 | 1, 1 => 27/70 | 1, 2 => -27/560 | 1, 3 => -3/140
  | 2, 0 => -3/140 | 2, 1 => -27/560 | 2, 2 => 27/70 | 2, 3 => 33/560
  | 3, 0 => 19/1680 | 3, 1 => -3/140 | 3, 2 => 33/560 | 3, 3 => 8/105
  | _, _ => 0

theorem mass3_lo {j k : ℕ} (hj : j < 2) (hk : k ≤ 3) : Poly.integrate01 (Poly.mul (symPhi 3 j) (symPhi 3 k)) = mass3 j k := by
  interval_cases j <;> interval_cases k <;>
    norm_num [mass3, symPhi, symBasis, Poly.mul, Poly.sub, Poly.neg, Poly.smul, Poly.add, Poly.C, Poly.X, Poly.integrate01, Poly.integFrom]

theorem mass3_hi {j k : ℕ} (hj : 2 ≤ j) (hj3 : j ≤ 3) (hk : k ≤ 3) :
    Poly.integrate01 (Poly.mul (symPhi 3 j) (symPhi 3 k)) = mass3 j k := by
  interval_cases j <;> interval_cases k <;>
    norm_num [mass3, symPhi, symBasis, Poly.mul, Poly.sub, Poly.neg, Poly.smul, Poly.add, Poly.C, Poly.X, Poly.integrate01, Poly.integFrom]

theorem nodeRep_mass3 {i k : ℕ} (hi : i ≤ 3) (hk : k ≤ 3) :
    nodeRep 3 i 0 * mass3 0 k + nodeRep 3 i 1 * mass3 1 k + nodeRep 3 i 2 * mass3 2 k + nodeRep 3 i 3 * mass3 3 k
      = if k = i then 1 else 0 := by
  interval_cases i <;> interval_cases k <;> norm_num [nodeRep, mass3]

theorem nodeRep_spec3 {i k : ℕ} (hi : i ≤ 3) (hk : k ≤ 3) :
    ∑ j ∈ range (3 + 1), nodeRep 3 i j * Poly.integrate01 (Poly.mul (symPhi 3 j) (symPhi 3 k))
      = if k = i then 1 else 0 := by
  rw [← nodeRep_mass3 hi hk, sum_range_succ, sum_range_succ, sum_range_succ, sum_range_one, mass3_lo (by norm_num) hk,
    mass3_lo (by norm_num) hk, mass3_hi le_rfl (by norm_num) hk, mass3_hi (by norm_num) le_rfl hk]

theorem nodeRep_spec {q i k : ℕ} (hq : q ≤ 3) (hi : i ≤ q) (hk : k ≤ q) :
    ∑ j ∈ range (q + 1), nodeRep q i j * Poly.integrate01 (Poly.mul (symPhi q j) (symPhi q k))
      = if k = i then 1 else 0 := by
  rcases hq.eq_or_lt with rfl | hq
  · exact nodeRep_spec3 hi hk
  interval_cases q <;> interval_cases i <;> interval_cases k <;>
    norm_num [sum_range_succ, nodeRep, symPhi, symBasis, Poly.mul, Poly.sub, Poly.neg, Poly.smul,
      Poly.add, Poly.C, Poly.X, Poly.integrate01, Poly.integFrom]

theorem int_phi_nodeRep {q i : ℕ} (hq : q ≤ 3) (hi : i ≤ q) {dt : ℝ} (hdt : dt ≠ 0) (n : ℕ) {k : ℕ} (hk : k ≤ q) :
    ∑ j ∈ range (q + 1), (nodeRep q i j : ℝ)
        * (∫ t in (n * dt)..((n + 1 : ℕ) * dt), phiT q dt n j t * phiT q dt n k t)
      = if k = i then dt else 0 := by
  have h := congrArg (fun x : ℚ => dt * (x : ℝ)) (nodeRep_spec hq hi hk)
  simp only [Rat.cast_sum, Rat.cast_mul, mul_sum] at h
  have e : dt * (((if k = i then 1 else 0 : ℚ)) : ℝ) = if k = i then dt else 0 := by
    split <;> simp
  rw [← e, ← h]
  refine sum_congr rfl fun j hj => ?_
  rw [int_phi_phi hq hdt n (Nat.lt_succ_iff.1 (mem_range.1 hj)) hk]
  ring

/-- The energy of the value at a node is at most `(q+1)^2/dt` times the integral of the energy over the slab. -/
theorem node_control {q i : ℕ} (hq : q ≤ 3) (hi : i ≤ q) {dt : ℝ} (hdt : 0 < dt) (n : ℕ)
    (B : V →ₗ[ℝ] V →ₗ[ℝ] ℝ) (hB : ∀ v, 0 ≤ B v v) (F : ℤ → V) :
    B (F (n * (q + 1) + i)) (F (n * (q + 1) + i))
      ≤ (q + 1) ^ 2 / dt * ∫ t in (n * dt)..((n + 1 : ℕ) * dt), B (Spec.val q dt n F t) (Spec.val q dt n F t) := by
  set I : ℕ → ℕ → ℝ := fun j k =>
    ∫ t in (n * dt)..((n + 1 : ℕ) * dt), phiT q dt n j t * phiT q dt n k t with hI
  have hIs : ∀ j k, I j k = I k j := fun j k => by simp only [hI, mul_comm]
  set w : ℕ → ℝ := fun j => (nodeRep q i j : ℝ) with hw
  set F0 := F (n * (q + 1) + i) with hF0
  have hF0' : blk q n F i = F0 := by simp [blk, hF0]
  obtain ⟨d1, d2⟩ := nodeRep_diag hq hi
  have hw0 : 0 < w i := by simp only [hw]; exact_mod_cast d1
  have hw1 : w i ≤ (q + 1) ^ 2 := by simp only [hw]; exact_mod_cast d2
  set l : ℝ := 1 / w i with hl
  have hrep : ∀ k ∈ range (q + 1), ∑ j ∈ range (q + 1), I j k * w j = if k = i then dt else 0 := by
    intro k hk
    rw [← int_phi_nodeRep hq hi hdt.ne' n (Nat.lt_succ_iff.1 (mem_range.1 hk))]
    exact sum_congr rfl fun j _ => mul_comm _ _
  have hlin : ∀ (g : ℕ → ℝ), ∑ j ∈ range (q + 1), ∑ k ∈ range (q + 1), I j k * w j * g k
      = dt * g i := by
    intro g
    rw [sum_comm]
    have : ∀ k ∈ range (q + 1), ∑ j ∈ range (q + 1), I j k * w j * g k
        = if k = i then dt * g i else 0 := by
      intro k hk
      rw [← sum_mul, hrep k hk]
      split
      · rename_i h0; rw [h0]
      · rw [zero_mul]
    rw [sum_congr rfl this, sum_ite_eq' (range (q + 1)) i, if_pos (mem_range.2 (Nat.lt_succ_of_le hi))]
  have hlin' : ∀ (g : ℕ → ℝ), ∑ j ∈ range (q + 1), ∑ k ∈ range (q + 1), I j k * w k * g j
      = dt * g i := by
    intro g
    rw [← hlin g, sum_comm]
    exact sum_congr rfl fun j _ => sum_congr rfl fun k _ => by rw [hIs]
  have hpos : 0 ≤ ∫ t in (n * dt)..((n + 1 : ℕ) * dt),
      B (comb (q + 1) (phiT q dt n) (fun j => blk q n F j - (l * w j) • F0) t)
        (comb (q + 1) (phiT q dt n) (fun j => blk q n F j - (l * w j) • F0) t) :=
    intervalIntegral.integral_nonneg (by push_cast; nlinarith) fun t _ => hB _
  rw [integral_bilin_comb B _ _ _ _ _ _ (continuous_phiT hq) (continuous_phiT hq)] at hpos
  have hexp : ∑ j ∈ range (q + 1), ∑ k ∈ range (q + 1), I j k
        * B (blk q n F j - (l * w j) • F0) (blk q n F k - (l * w k) • F0)
      = (∑ j ∈ range (q + 1), ∑ k ∈ range (q + 1), I j k * B (blk q n F j) (blk q n F k))
        - l * (∑ j ∈ range (q + 1), ∑ k ∈ range (q + 1), I j k * w k * B (blk q n F j) F0)
        - l * (∑ j ∈ range (q + 1), ∑ k ∈ range (q + 1), I j k * w j * B F0 (blk q n F k))
        + l ^ 2 * (∑ j ∈ range (q + 1), ∑ k ∈ range (q + 1), I j k * w j * (w k * B F0 F0)) := by
    simp only [mul_sum, ← sum_sub_distrib, ← sum_add_distrib]
    refine sum_congr rfl fun j _ => sum_congr rfl fun k _ => ?_
    simp only [map_sub, map_smul, LinearMap.sub_apply, LinearMap.smul_apply, smul_eq_mul]
    ring
  change 0 ≤ ∑ j ∈ range (q + 1), ∑ k ∈ range (q + 1), I j k
        * B (blk q n F j - (l * w j) • F0) (blk q n F k - (l * w k) • F0) at hpos
  rw [hexp, hlin' (fun j => B (blk q n F j) F0), hlin (fun k => B F0 (blk q n F k)),
    hlin (fun k => w k * B F0 F0)] at hpos
  simp only [hF0'] at hpos
  rw [val_eq, integral_bilin_comb B _ _ _ _ _ _ (continuous_phiT hq) (continuous_phiT hq)]
  change _ ≤ (q + 1 : ℝ) ^ 2 / dt * ∑ j ∈ range (q + 1), ∑ k ∈ range (q + 1), I j k * B (blk q n F j) (blk q n F k)
  have e : l ^ 2 * (dt * (w i * B F0 F0)) = l * (dt * B F0 F0) := by
    rw [hl]; field_simp
  rw [e] at hpos
  set J := ∑ j ∈ range (q + 1), ∑ k ∈ range (q + 1), I j k * B (blk q n F j) (blk q n F k)
  have h1 : l * (dt * B F0 F0) ≤ J := by linarith
  have h2 : B F0 F0 = w i / dt * (l * (dt * B F0 F0)) := by rw [hl]; field_simp
  have hJ : 0 ≤ J := le_trans (by have := hB F0; positivity) h1
  calc B F0 F0 = w i / dt * (l * (dt * B F0 F0)) := h2
    _ ≤ w i / dt * J := by gcongr
    _ ≤ _ := by gcongr

/-- A combination with bounded weights. -/
theorem bilin_sum_le (B : V →ₗ[ℝ] V →ₗ[ℝ] ℝ) (hB : ∀ v, 0 ≤ B v v) {m : ℕ} {b : ℕ → ℝ} {β : ℝ} {F : ℕ → V} {Z : ℝ}
    (hb : ∀ j < m, |b j| ≤ β) (hF : ∀ j < m, B (F j) (F j) ≤ Z) :
    B (∑ j ∈ range m, b j • F j) (∑ j ∈ range m, b j • F j) ≤ (m * β) ^ 2 * Z := by
  have two : ∀ v w : V, B v w + B w v ≤ B v v + B w w := fun v w => by
    have := hB (v - w)
    simp only [map_sub, LinearMap.sub_apply] at this
    linarith
  have step : ∀ j < m, ∀ k < m, B (b j • F j) (b k • F k) + B (b k • F k) (b j • F j) ≤ 2 * (β ^ 2 * Z) := by
    intro j hj k hk
    have sq : ∀ j < m, b j ^ 2 ≤ β ^ 2 := fun j hj => by
      rw [← sq_abs]; exact pow_le_pow_left₀ (abs_nonneg _) (hb j hj) 2
    have one : ∀ j < m, B (b j • F j) (b j • F j) ≤ β ^ 2 * Z := fun j hj => by
      simp only [map_smul, LinearMap.smul_apply, smul_eq_mul]
      have h1 := hB (F j); have h2 := hF j hj; have h3 := sq j hj
      nlinarith [sq_nonneg (b j), sq_nonneg β]
    linarith [two (b j • F j) (b k • F k), one j hj, one k hk]
  have e : B (∑ j ∈ range m, b j • F j) (∑ j ∈ range m, b j • F j)
      = ∑ j ∈ range m, ∑ k ∈ range m, B (b j • F j) (b k • F k) := by
    simp only [map_sum, LinearMap.sum_apply]
    exact sum_comm
  have e2 : 2 * B (∑ j ∈ range m, b j • F j) (∑ j ∈ range m, b j • F j)
      = ∑ j ∈ range m, ∑ k ∈ range m, (B (b j • F j) (b k • F k) + B (b k • F k) (b j • F j)) := by
    simp only [sum_add_distrib]
    rw [two_mul, e]
    congr 1
    exact sum_comm
  have h := sum_le_sum fun j (hj : j ∈ range m) => sum_le_sum fun k (hk : k ∈ range m) => step j (mem_range.1 hj) k (mem_range.1 hk)
  rw [← e2] at h
  simp only [sum_const, card_range, nsmul_eq_mul] at h
  nlinarith

theorem phi_le_two {q j : ℕ} (hq : q ≤ 3) (hj : j ≤ q) {s : ℝ} (hs : s ∈ Set.Icc (0:ℝ) 1) : |phi q j s| ≤ 2 := by
  obtain ⟨h0, h1⟩ := hs
  rw [abs_le]
  interval_cases q <;> interval_cases j <;> simp only [phi, basisInTime] <;> constructor <;> norm_num <;>
    nlinarith [mul_nonneg h0 (sub_nonneg.2 h1), mul_nonneg (mul_nonneg h0 (sub_nonneg.2 h1)) h0,
      mul_nonneg (mul_nonneg h0 (sub_nonneg.2 h1)) (sub_nonneg.2 h1), sq_nonneg (s - 1/2), sq_nonneg s, sq_nonneg (1 - s)]

theorem dphi_le_ten {q j : ℕ} (hq : q ≤ 3) (hj : j ≤ q) {s : ℝ} (hs : s ∈ Set.Icc (0:ℝ) 1) : |dphi q j s| ≤ 10 := by
  obtain ⟨h0, h1⟩ := hs
  rw [abs_le]
  interval_cases q <;> interval_cases j <;> simp only [dphi, basisInTime] <;> constructor <;> norm_num <;>
    nlinarith [mul_nonneg h0 (sub_nonneg.2 h1), sq_nonneg (s - 1/2), sq_nonneg s, sq_nonneg (1 - s)]

end Dxss
