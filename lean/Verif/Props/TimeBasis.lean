import Verif.Lemmas.Time
import Mathlib.Analysis.Calculus.MeanValue
import Mathlib.MeasureTheory.Integral.IntervalIntegral.FundThmCalculus
import Mathlib.Algebra.BigOperators.Ring.Finset

/-!
# Properties C01–C06, C10: time basis, element matrices, lifting polynomial

`phi q j` / `dphi q j` are `basis_in_time[q][0][j]` / `basis_in_time[q][1][j]`.
-/

namespace Dxss
open Finset

/-! ## C01 -/

/-- The dict has a key exactly for orders 0..3, and both lists have `q+1` entries. -/
theorem C01_table_shape (q : ℕ) :
    (q ≤ 3 → ∃ vs ds, basisInTime q = some (vs, ds) ∧ vs.length = q + 1 ∧ ds.length = q + 1) ∧
    (3 < q → basisInTime q = none) := by
  constructor
  · intro hq; interval_cases q <;> exact ⟨_, _, rfl, rfl, rfl⟩
  · intro hq
    match q, hq with
    | n + 4, _ => rfl

/-- Lagrange property at the equispaced nodes `i/q`. -/
theorem C01_basis_nodal {q i j : ℕ} (hq : q ≤ 3) (hq0 : 1 ≤ q) (hi : i ≤ q) (hj : j ≤ q) :
    phi q j ((i : ℝ) / q) = if i = j then 1 else 0 := by
  interval_cases q <;> interval_cases i <;> interval_cases j <;>
    simp [phi, basisInTime] <;> norm_num

/-- Order 0: the only basis function is 1 everywhere (hence at any node). -/
theorem C01_basis_nodal_zero (t : ℝ) : phi 0 0 t = 1 := rfl

/-- Partition of unity; the tabulated derivatives sum to zero. -/
theorem C01_partition_of_unity {q : ℕ} (hq : q ≤ 3) (t : ℝ) :
    ∑ j ∈ range (q + 1), phi q j t = 1 ∧ ∑ j ∈ range (q + 1), dphi q j t = 0 := by
  interval_cases q <;> constructor <;> simp [sum_range_succ, phi, dphi, basisInTime] <;> ring

-- non-trivial instance: cubic basis at an off-node point
example : phi 3 0 (1/6) + phi 3 1 (1/6) + phi 3 2 (1/6) + phi 3 3 (1/6) = 1
    ∧ phi 3 1 (1/6) ≠ 0 := by
  constructor <;> simp [phi, basisInTime] <;> norm_num

/-! ## C02 -/

/-- The tabulated derivative is the derivative at every real `t`. -/
theorem C02_derivative_table {q j : ℕ} (hq : q ≤ 3) (hj : j ≤ q) (t : ℝ) :
    HasDerivAt (phi q j) (dphi q j t) t := hasDerivAt_phi hq hj t

example : dphi 3 1 (1/5) ≠ 0 := by simp [dphi, basisInTime]; norm_num

/-! ## C03 -/

/-- All six matrices are integrals of the public basis functions over `[0,1]`;
rows are test indices, columns trial indices. -/
theorem C03_elmat_integrals {q qstar : ℕ} (hq : q ≤ 3) (hs : qstar ≤ 3) :
    ∃ E, getElmatTime q qstar = .ok E ∧
      (∀ i ≤ qstar, ∀ j ≤ q, (E.M_q_qs i j : ℝ) = ∫ t in (0:ℝ)..1, phi q j t * phi qstar i t) ∧
      (∀ i ≤ q, ∀ j ≤ q, (E.M_q_q i j : ℝ) = ∫ t in (0:ℝ)..1, phi q j t * phi q i t) ∧
      (∀ i ≤ qstar, ∀ j ≤ qstar,
        (E.M_qs_qs i j : ℝ) = ∫ t in (0:ℝ)..1, phi qstar j t * phi qstar i t) ∧
      (∀ i ≤ qstar, ∀ j ≤ q, (E.DM_q_qs i j : ℝ) = ∫ t in (0:ℝ)..1, dphi q j t * phi qstar i t) ∧
      (∀ i ≤ q, ∀ j ≤ q, (E.DM_q_q i j : ℝ) = ∫ t in (0:ℝ)..1, dphi q j t * phi q i t) ∧
      (∀ i ≤ q, ∀ j ≤ q, (E.DDM_q_q i j : ℝ) = ∫ t in (0:ℝ)..1, dphi q j t * dphi q i t) :=
  ⟨_, getElmatTime_ok hq hs,
    fun _ hi _ hj => M_q_qs_eq hq hs hi hj, fun _ hi _ hj => M_q_q_eq hq hi hj,
    fun _ hi _ hj => M_qs_qs_eq hs hi hj, fun _ hi _ hj => DM_q_qs_eq hq hs hi hj,
    fun _ hi _ hj => DM_q_q_eq hq hi hj, fun _ hi _ hj => DDM_q_q_eq hq hi hj⟩

/-- Unsupported orders raise `KeyError`. -/
theorem C03_elmat_keyError (q qstar : ℕ) :
    getElmatTime q qstar = .error .keyError ↔ ¬ (q ≤ 3 ∧ qstar ≤ 3) := by
  constructor
  · intro h hle; rw [getElmatTime_ok hle.1 hle.2] at h; cases h
  · exact getElmatTime_error

example : ∃ E, getElmatTime 2 1 = .ok E ∧ E.M_q_qs 0 0 = 1/6 ∧ E.DM_q_qs 1 2 = 5/6 := by
  refine ⟨_, getElmatTime_ok (by norm_num) (by norm_num), ?_, ?_⟩ <;> decide +kernel

/-! ## C04 -/

/-- the discrete time function with coefficients `c` -/
noncomputable def timeFun (q : ℕ) (c : ℕ → ℝ) (t : ℝ) : ℝ := ∑ j ∈ range (q + 1), c j * phi q j t
/-- its tabulated derivative -/
noncomputable def timeFun' (q : ℕ) (c : ℕ → ℝ) (t : ℝ) : ℝ := ∑ j ∈ range (q + 1), c j * dphi q j t

theorem continuous_timeFun {q : ℕ} (hq : q ≤ 3) (c : ℕ → ℝ) : Continuous (timeFun q c) :=
  continuous_finsetSum _ fun _ hj => continuous_const.mul
    (continuous_phi hq (Nat.lt_succ_iff.mp (mem_range.mp hj)))

theorem continuous_timeFun' {q : ℕ} (hq : q ≤ 3) (c : ℕ → ℝ) : Continuous (timeFun' q c) :=
  continuous_finsetSum _ fun _ hj => continuous_const.mul
    (continuous_dphi hq (Nat.lt_succ_iff.mp (mem_range.mp hj)))

theorem hasDerivAt_timeFun {q : ℕ} (hq : q ≤ 3) (c : ℕ → ℝ) (t : ℝ) :
    HasDerivAt (timeFun q c) (timeFun' q c t) t := by
  have h := HasDerivAt.fun_sum (u := range (q+1)) (A := fun j t => c j * phi q j t)
    (A' := fun j => c j * dphi q j t) (x := t) fun j hj =>
      (hasDerivAt_phi hq (Nat.lt_succ_iff.mp (mem_range.mp hj)) t).const_mul (c j)
  exact h

theorem timeFun_node {q i : ℕ} (hq : q ≤ 3) (hi : i ≤ q) (c : ℕ → ℝ) :
    timeFun q c ((i : ℝ) / q) = c i := by
  rcases Nat.eq_zero_or_pos q with rfl | h0
  · obtain rfl : i = 0 := by omega
    simp [timeFun, phi_0_0]
  · unfold timeFun
    rw [sum_eq_single i]
    · rw [C01_basis_nodal hq h0 hi hi]; simp
    · intro j hj hne
      rw [C01_basis_nodal hq h0 hi (Nat.lt_succ_iff.mp (mem_range.mp hj)), if_neg (Ne.symm hne)]
      simp
    · intro h; exact absurd (mem_range.mpr (Nat.lt_succ_of_le hi)) h

theorem quad_eq_integral {q : ℕ} (f g : ℕ → ℝ → ℝ) (hf : ∀ j ≤ q, Continuous (f j))
    (hg : ∀ j ≤ q, Continuous (g j)) (M : ℕ → ℕ → ℚ)
    (hM : ∀ i ≤ q, ∀ j ≤ q, (M i j : ℝ) = ∫ t in (0:ℝ)..1, f j t * g i t) (c d : ℕ → ℝ) :
    ∑ i ∈ range (q+1), ∑ j ∈ range (q+1), d i * (M i j : ℝ) * c j
      = ∫ t in (0:ℝ)..1, (∑ j ∈ range (q+1), c j * f j t) * (∑ i ∈ range (q+1), d i * g i t) := by
  have le : ∀ {j}, j ∈ range (q+1) → j ≤ q := fun h => Nat.lt_succ_iff.mp (mem_range.mp h)
  have e : (fun t => (∑ j ∈ range (q+1), c j * f j t) * (∑ i ∈ range (q+1), d i * g i t))
      = fun t => ∑ i ∈ range (q+1), ∑ j ∈ range (q+1), (d i * c j) * (f j t * g i t) := by
    funext t
    rw [sum_mul_sum, sum_comm]
    exact sum_congr rfl fun i _ => sum_congr rfl fun j _ => by ring
  rw [e, intervalIntegral.integral_finsetSum]
  · refine sum_congr rfl fun i hi => ?_
    rw [intervalIntegral.integral_finsetSum]
    · refine sum_congr rfl fun j hj => ?_
      rw [intervalIntegral.integral_const_mul, hM i (le hi) j (le hj)]; ring
    · intro j hj
      exact (continuous_const.mul ((hf j (le hj)).mul (hg i (le hi)))).intervalIntegrable _ _
  · intro i hi
    exact (continuous_finsetSum _ fun j hj =>
      continuous_const.mul ((hf j (le hj)).mul (hg i (le hi)))).intervalIntegrable _ _

/-- `c^T M c` is positive for every non-zero coefficient vector. -/
theorem mass_posDef {q : ℕ} (hq : q ≤ 3) (M : ℕ → ℕ → ℚ)
    (hM : ∀ i ≤ q, ∀ j ≤ q, (M i j : ℝ) = ∫ t in (0:ℝ)..1, phi q j t * phi q i t)
    (c : ℕ → ℝ) (hc : ∃ j ≤ q, c j ≠ 0) :
    0 < ∑ i ∈ range (q+1), ∑ j ∈ range (q+1), c i * (M i j : ℝ) * c j := by
  rw [quad_eq_integral (phi q) (phi q) (fun j hj => continuous_phi hq hj)
    (fun j hj => continuous_phi hq hj) M hM]
  obtain ⟨j, hj, hne⟩ := hc
  have hcont : Continuous fun t => timeFun q c t * timeFun q c t :=
    (continuous_timeFun hq c).mul (continuous_timeFun hq c)
  refine intervalIntegral.integral_pos (by norm_num) hcont.continuousOn
    (fun x _ => mul_self_nonneg _) ⟨(j : ℝ) / q, ⟨by positivity, ?_⟩, ?_⟩
  · rcases Nat.eq_zero_or_pos q with rfl | h0
    · simp
    · rw [div_le_one (by exact_mod_cast h0)]; exact_mod_cast hj
  · show 0 < timeFun q c _ * timeFun q c _
    rw [timeFun_node hq hj]; exact mul_self_pos.mpr hne

/-- C04: both mass matrices are symmetric positive definite; the derivative matrix is symmetric
positive semidefinite with exactly the constant vectors in its kernel. -/
theorem C04_definiteness {q qstar : ℕ} {E : Elmat} (h : getElmatTime q qstar = .ok E)
    (c : ℕ → ℝ) :
    (∀ i j, E.M_q_q i j = E.M_q_q j i) ∧ (∀ i j, E.M_qs_qs i j = E.M_qs_qs j i) ∧
    (∀ i j, E.DDM_q_q i j = E.DDM_q_q j i) ∧
    ((∃ j ≤ q, c j ≠ 0) →
      0 < ∑ i ∈ range (q+1), ∑ j ∈ range (q+1), c i * (E.M_q_q i j : ℝ) * c j) ∧
    ((∃ j ≤ qstar, c j ≠ 0) →
      0 < ∑ i ∈ range (qstar+1), ∑ j ∈ range (qstar+1), c i * (E.M_qs_qs i j : ℝ) * c j) ∧
    0 ≤ ∑ i ∈ range (q+1), ∑ j ∈ range (q+1), c i * (E.DDM_q_q i j : ℝ) * c j ∧
    ((∑ i ∈ range (q+1), ∑ j ∈ range (q+1), c i * (E.DDM_q_q i j : ℝ) * c j = 0) ↔
      ∀ j ≤ q, c j = c 0) := by
  have hle : q ≤ 3 ∧ qstar ≤ 3 := by
    by_contra hcon; rw [getElmatTime_error hcon] at h; cases h
  obtain ⟨hq, hs⟩ := hle
  rw [getElmatTime_ok hq hs] at h
  obtain rfl : elmatOf q qstar = E := by simpa using h
  have symm_of : ∀ (n : ℕ) (M : ℕ → ℕ → ℚ) (f : ℕ → ℝ → ℝ),
      (∀ i j, ¬ (i ≤ n ∧ j ≤ n) → M i j = 0) →
      (∀ i ≤ n, ∀ j ≤ n, (M i j : ℝ) = ∫ t in (0:ℝ)..1, f j t * f i t) →
      ∀ i j, M i j = M j i := by
    intro n M f h0 hM i j
    by_cases hij : i ≤ n ∧ j ≤ n
    · have : (M i j : ℝ) = M j i := by
        rw [hM i hij.1 j hij.2, hM j hij.2 i hij.1]; congr 1; funext t; ring
      exact_mod_cast this
    · rw [h0 i j hij, h0 j i (fun hh => hij hh.symm)]
  have hDD : ∑ i ∈ range (q+1), ∑ j ∈ range (q+1), c i * ((elmatOf q qstar).DDM_q_q i j : ℝ) * c j
      = ∫ t in (0:ℝ)..1, timeFun' q c t * timeFun' q c t :=
    quad_eq_integral (dphi q) (dphi q) (fun j hj => continuous_dphi hq hj)
      (fun j hj => continuous_dphi hq hj) _ (fun i hi j hj => DDM_q_q_eq hq hi hj) c c
  have hcont : Continuous fun t => timeFun' q c t * timeFun' q c t :=
    (continuous_timeFun' hq c).mul (continuous_timeFun' hq c)
  refine ⟨symm_of q _ (phi q) ?_ (fun i hi j hj => M_q_q_eq hq hi hj),
    symm_of qstar _ (phi qstar) ?_ (fun i hi j hj => M_qs_qs_eq hs hi hj),
    symm_of q _ (dphi q) ?_ (fun i hi j hj => DDM_q_q_eq hq hi hj),
    mass_posDef hq _ (fun i hi j hj => M_q_q_eq hq hi hj) c,
    mass_posDef hs _ (fun i hi j hj => M_qs_qs_eq hs hi hj) c, ?_, ?_⟩
  · intro i j hij; simp only [elmatOf, fillMat]; rw [if_neg (by omega)]
  · intro i j hij; simp only [elmatOf, fillMat]; rw [if_neg (by omega)]
  · intro i j hij; simp only [elmatOf, fillMat]; rw [if_neg (by omega)]
  · rw [hDD]
    exact intervalIntegral.integral_nonneg (by norm_num) fun t _ => mul_self_nonneg _
  · rw [hDD]
    constructor
    · intro hz
      have hzero : ∀ t ∈ Set.Icc (0:ℝ) 1, timeFun' q c t = 0 := by
        intro t ht
        by_contra hne
        have : 0 < ∫ t in (0:ℝ)..1, timeFun' q c t * timeFun' q c t :=
          intervalIntegral.integral_pos (by norm_num) hcont.continuousOn
            (fun x _ => mul_self_nonneg _) ⟨t, ht, mul_self_pos.mpr hne⟩
        linarith
      have hconst : ∀ t ∈ Set.Icc (0:ℝ) 1, timeFun q c t = timeFun q c 0 :=
        constant_of_has_deriv_right_zero (continuous_timeFun hq c).continuousOn
          (fun t ht => by
            have := (hasDerivAt_timeFun hq c t).hasDerivWithinAt (s := Set.Ici t)
            rwa [hzero t ⟨ht.1, ht.2.le⟩] at this)
      intro j hj
      have h0 : timeFun q c 0 = c 0 := by simpa using timeFun_node hq (Nat.zero_le q) c
      rw [← timeFun_node hq hj c, hconst, h0]
      refine ⟨by positivity, ?_⟩
      rcases Nat.eq_zero_or_pos q with rfl | hpos
      · simp
      · rw [div_le_one (by exact_mod_cast hpos)]; exact_mod_cast hj
    · intro hcst
      have : ∀ t, timeFun' q c t = 0 := by
        intro t
        have : timeFun' q c t = ∑ j ∈ range (q+1), c 0 * dphi q j t :=
          sum_congr rfl fun j hj => by rw [hcst j (Nat.lt_succ_iff.mp (mem_range.mp hj))]
        rw [this, ← mul_sum, (C01_partition_of_unity hq t).2, mul_zero]
      simp [this]

example : ∃ E, getElmatTime 3 0 = .ok E := ⟨_, getElmatTime_ok (by norm_num) (by norm_num)⟩

/-! ## C05 -/

/-- Discrete integration by parts in time. -/
theorem C05_integration_by_parts {q qstar : ℕ} {E : Elmat} (h : getElmatTime q qstar = .ok E)
    {i j : ℕ} (hi : i ≤ q) (hj : j ≤ q) :
    (E.DM_q_q i j : ℝ) + E.DM_q_q j i = phi q i 1 * phi q j 1 - phi q i 0 * phi q j 0 := by
  have hle : q ≤ 3 ∧ qstar ≤ 3 := by
    by_contra hcon; rw [getElmatTime_error hcon] at h; cases h
  obtain ⟨hq, hs⟩ := hle
  rw [getElmatTime_ok hq hs] at h
  obtain rfl : elmatOf q qstar = E := by simpa using h
  rw [DM_q_q_eq hq hi hj, DM_q_q_eq hq hj hi, ← intervalIntegral.integral_add]
  · have hd : ∀ t ∈ Set.uIcc (0:ℝ) 1, HasDerivAt (fun t => phi q i t * phi q j t)
        (dphi q j t * phi q i t + dphi q i t * phi q j t) t := by
      intro t _
      exact ((hasDerivAt_phi hq hi t).mul (hasDerivAt_phi hq hj t)).congr_deriv (by ring)
    rw [intervalIntegral.integral_eq_sub_of_hasDerivAt hd]
    exact (((continuous_dphi hq hj).mul (continuous_phi hq hi)).add
      ((continuous_dphi hq hi).mul (continuous_phi hq hj))).intervalIntegrable _ _
  · exact ((continuous_dphi hq hj).mul (continuous_phi hq hi)).intervalIntegrable _ _
  · exact ((continuous_dphi hq hi).mul (continuous_phi hq hj)).intervalIntegrable _ _

example : ∃ E, getElmatTime 2 2 = .ok E ∧ E.DM_q_q 2 2 = 1/2 ∧ E.DM_q_q 0 1 = 2/3 := by
  refine ⟨_, getElmatTime_ok (by norm_num) (by norm_num), ?_, ?_⟩ <;> decide +kernel

/-! ## C06 (table part; the form-level statement is in `Props/Assembly.lean`) -/

/-- Every entry of the mixed time mass matrix is either exactly zero or larger than `1e-10`, for
all supported pairs of orders. -/
theorem C06_guard_entries {q qstar : ℕ} {E : Elmat} (h : getElmatTime q qstar = .ok E) (i j : ℕ) :
    E.M_q_qs i j = 0 ∨ 1e-10 < |E.M_q_qs i j| := by
  have hle : q ≤ 3 ∧ qstar ≤ 3 := by
    by_contra hcon; rw [getElmatTime_error hcon] at h; cases h
  obtain ⟨hq, hs⟩ := hle
  rw [getElmatTime_ok hq hs] at h
  obtain rfl : elmatOf q qstar = E := by simpa using h
  by_cases hij : i ≤ qstar ∧ j ≤ q
  · have hall : ∀ q ≤ 3, ∀ qstar ≤ 3, ∀ i ≤ qstar, ∀ j ≤ q,
        (elmatOf q qstar).M_q_qs i j = 0 ∨ 1e-10 < |(elmatOf q qstar).M_q_qs i j| := by
      decide +kernel
    exact hall q hq qstar hs i hij.1 j hij.2
  · left; simp only [elmatOf, fillMat]; rw [if_neg (by omega)]

-- the guard is really used: with q = 2, qstar = 1 some entries vanish and some do not
example : ∃ E, getElmatTime 2 1 = .ok E ∧ E.M_q_qs 0 2 = 0 ∧ E.M_q_qs 0 0 ≠ 0 := by
  refine ⟨_, getElmatTime_ok (by norm_num) (by norm_num), ?_, ?_⟩ <;> decide +kernel

/-! ## C10 -/

theorem thetaRef_eq (τ : ℝ) : thetaRef τ = τ * (τ - 1) / 2 := by
  norm_num [thetaRef, ptsRadauRight]; ring

theorem dThetaRef_eq (τ : ℝ) : dThetaRef τ = τ - 1/2 := by
  norm_num [dThetaRef, ptsRadauRight, List.range_succ]; ring

/-- `theta_ref` is 1 at −1, vanishes at 0 and 1, and `d_theta_ref` is its derivative everywhere. -/
theorem C10_lifting_polynomial :
    thetaRef (-1) = 1 ∧ thetaRef 0 = 0 ∧ thetaRef 1 = 0 ∧
    ∀ τ, HasDerivAt thetaRef (dThetaRef τ) τ := by
  refine ⟨by rw [thetaRef_eq]; norm_num, by rw [thetaRef_eq]; norm_num,
    by rw [thetaRef_eq]; norm_num, fun τ => ?_⟩
  have e : thetaRef = fun τ : ℝ => τ * (τ - 1) / 2 := funext thetaRef_eq
  rw [e, dThetaRef_eq]
  exact (((hasDerivAt_id τ).mul ((hasDerivAt_id τ).sub_const 1)).div_const 2).congr_deriv
    (by simp; ring)

end Dxss
