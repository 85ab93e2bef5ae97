import Verif.Lemmas.Kernel

/-! # Discrete waves of zero energy are polynomial in time, hence zero -/

namespace Dxss
open Finset
variable {V : Type} [AddCommGroup V] [Module ℝ V]

/-- A value of a combination at a node of the slab. -/
theorem comb_node {q : ℕ} (hq : q ≤ 3) (F : ℕ → V) {j : ℕ} (hj : j ≤ q) : comb (q + 1) (phi q) F (j / q) = F j := by
  rcases Nat.eq_zero_or_pos q with rfl | h0
  · obtain rfl : j = 0 := by omega
    simp [comb, phi_0_0]
  · rw [comb, sum_eq_single j]
    · rw [C01_basis_nodal hq h0 hj hj]; simp
    · intro i hi hne
      rw [C01_basis_nodal hq h0 hj (Nat.lt_succ_iff.1 (mem_range.1 hi))]
      simp [hne.symm]
    · intro hn; exact absurd (mem_range.2 (Nat.lt_succ_of_le hj)) hn

/-- The second derivative of the basis functions, computed from the values of the first at the nodes. -/
noncomputable def ddphi (q i : ℕ) (s : ℝ) : ℝ := ∑ j ∈ range (q + 1), dphi q j s * dphi q i (j / q)

theorem ddphi_affine {q : ℕ} (hq : q ≤ 3) {i : ℕ} (hi : i ≤ q) (s : ℝ) :
    ddphi q i s = (1 - s) * ddphi q i 0 + s * ddphi q i 1 := by
  unfold ddphi
  interval_cases q <;> interval_cases i <;> simp only [sum_range_succ, sum_range_zero, dphi_0_0, dphi_1_0, dphi_1_1, dphi_2_0, dphi_2_1, dphi_2_2, dphi_3_0, dphi_3_1, dphi_3_2, dphi_3_3] <;> push_cast <;> ring

theorem ddphi_kills {q : ℕ} (hq : q ≤ 3) (s : ℝ) :
    ∑ i ∈ range (q + 1), ddphi q i s = 0 ∧ ∑ i ∈ range (q + 1), ddphi q i s * (i / q : ℝ) = 0 := by
  unfold ddphi
  interval_cases q <;> constructor <;> simp only [sum_range_succ, sum_range_zero, dphi_0_0, dphi_1_0, dphi_1_1, dphi_2_0, dphi_2_1, dphi_2_2, dphi_3_0, dphi_3_1, dphi_3_2, dphi_3_3] <;> push_cast <;> ring

/-- The functions on which a positive form vanishes. -/
def nullSpace (B : V →ₗ[ℝ] V →ₗ[ℝ] ℝ) (hB : ∀ v, 0 ≤ B v v) (hs : ∀ u v, B u v = B v u) : Submodule ℝ V where
  carrier := {v | B v v = 0}
  zero_mem' := by simp
  smul_mem' c v hv := by
    simp only [Set.mem_ofPred_eq] at hv ⊢
    simp [hv]
  add_mem' {u v} hu hv := by
    simp only [Set.mem_ofPred_eq] at hu hv ⊢
    have h1 := hB (u + v); have h2 := hB (u - v)
    simp only [map_add, map_sub, LinearMap.add_apply, LinearMap.sub_apply, hu, hv, hs v u] at h1 h2 ⊢
    linarith

/-- A discrete wave on one slab: if the values stay in a space on which the elementwise Laplacian is injective, the wave is zero. -/
theorem slab_zero {q : ℕ} (hq : q ≤ 3) (L : V →ₗ[ℝ] V) {r : ℝ} (hr : r ≠ 0) (F G : ℕ → V) {W : Submodule ℝ V}
    (hW : ∀ u ∈ W, L u = 0 → u = 0) (hF : ∀ s ∈ Set.Icc (0:ℝ) 1, comb (q + 1) (phi q) F s ∈ W)
    (h1 : ∀ s ∈ Set.Icc (0:ℝ) 1, comb (q + 1) (dphi q) F s = r • comb (q + 1) (phi q) G s)
    (h2 : ∀ s ∈ Set.Icc (0:ℝ) 1, comb (q + 1) (dphi q) G s = r • L (comb (q + 1) (phi q) F s)) :
    (∀ j ≤ q, F j = 0) ∧ ∀ j ≤ q, G j = 0 := by
  have node : ∀ j ≤ q, ((j : ℝ) / q) ∈ Set.Icc (0:ℝ) 1 := by
    intro j hj
    rcases Nat.eq_zero_or_pos q with rfl | h0
    · simp
    · have : (0:ℝ) < q := by exact_mod_cast h0
      exact ⟨by positivity, by rw [div_le_one this]; exact_mod_cast hj⟩
  -- the second derivative of the values
  have hdd : ∀ s ∈ Set.Icc (0:ℝ) 1, comb (q + 1) (ddphi q) F s = (r * r) • L (comb (q + 1) (phi q) F s) := by
    intro s hs
    rw [mul_smul, ← h2 s hs, comb, comb, smul_sum]
    have e : ∀ j ∈ range (q + 1), r • dphi q j s • G j = ∑ i ∈ range (q + 1), (dphi q j s * dphi q i (j / q)) • F i := by
      intro j hj
      have hj := Nat.lt_succ_iff.1 (mem_range.1 hj)
      have := h1 _ (node j hj)
      rw [comb_node hq G hj] at this
      rw [smul_comm, ← this, comb, smul_sum]
      exact sum_congr rfl fun i _ => smul_smul _ _ _
    rw [sum_congr rfl e, sum_comm]
    exact sum_congr rfl fun i _ => by rw [ddphi, sum_smul]
  have h0 : (0:ℝ) ∈ Set.Icc (0:ℝ) 1 := ⟨le_rfl, zero_le_one⟩
  have h01 : (1:ℝ) ∈ Set.Icc (0:ℝ) 1 := ⟨zero_le_one, le_rfl⟩
  have hrr : r * r ≠ 0 := mul_ne_zero hr hr
  -- it is affine in time, hence so are the values
  have haff : ∀ s ∈ Set.Icc (0:ℝ) 1, comb (q + 1) (phi q) F s
      = (1 - s) • comb (q + 1) (phi q) F 0 + s • comb (q + 1) (phi q) F 1 := by
    intro s hs
    rw [← sub_eq_zero]
    refine hW _ (W.sub_mem (hF s hs) (W.add_mem (W.smul_mem _ (hF 0 h0)) (W.smul_mem _ (hF 1 h01)))) ?_
    have : (r * r) • L (comb (q + 1) (phi q) F s - ((1 - s) • comb (q + 1) (phi q) F 0 + s • comb (q + 1) (phi q) F 1)) = 0 := by
      rw [map_sub, map_add, map_smul, map_smul, smul_sub, smul_add, smul_comm (r * r) (1 - s), smul_comm (r * r) s,
        ← hdd s hs, ← hdd 0 h0, ← hdd 1 h01, sub_eq_zero]
      simp only [comb, smul_sum, smul_smul]
      rw [← sum_add_distrib]
      refine sum_congr rfl fun i hi => ?_
      rw [← add_smul, ← ddphi_affine hq (Nat.lt_succ_iff.1 (mem_range.1 hi))]
    exact (smul_eq_zero.1 this).resolve_left hrr
  -- so the second derivative vanishes
  have hzero : ∀ s ∈ Set.Icc (0:ℝ) 1, comb (q + 1) (phi q) F s = 0 := by
    intro s hs
    refine hW _ (hF s hs) ?_
    have : (r * r) • L (comb (q + 1) (phi q) F s) = 0 := by
      rw [← hdd s hs]
      have e : ∀ i ∈ range (q + 1), ddphi q i s • F i = ddphi q i s • comb (q + 1) (phi q) F 0
          + (ddphi q i s * (i / q : ℝ)) • (comb (q + 1) (phi q) F 1 - comb (q + 1) (phi q) F 0) := by
        intro i hi
        have hi := Nat.lt_succ_iff.1 (mem_range.1 hi)
        rw [mul_smul, ← smul_add]
        congr 1
        rw [← comb_node hq F hi, haff _ (node i hi)]
        module
      rw [comb, sum_congr rfl e, sum_add_distrib, ← sum_smul, ← sum_smul, (ddphi_kills hq s).1, (ddphi_kills hq s).2,
        zero_smul, zero_smul, add_zero]
    exact (smul_eq_zero.1 this).resolve_left hrr
  have hF0 := comb_phi_zero hq F hzero
  refine ⟨hF0, comb_phi_zero hq G fun s hs => ?_⟩
  have : r • comb (q + 1) (phi q) G s = 0 := by
    rw [← h1 s hs, comb]
    exact sum_eq_zero fun j hj => by rw [hF0 j (Nat.lt_succ_iff.1 (mem_range.1 hj)), smul_zero]
  exact (smul_eq_zero.1 this).resolve_left hr

end Dxss
