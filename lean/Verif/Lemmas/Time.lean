import Verif.Lemmas.Poly
import Mathlib.Tactic.IntervalCases
import Mathlib.Tactic.NormNum

/-! Facts about the two basis tables. -/

namespace Dxss

theorem phi_0_0 : phi 0 0 = fun _ => 1 := rfl
theorem phi_1_0 : phi 1 0 = fun t => 1 - t := rfl
theorem phi_1_1 : phi 1 1 = fun t => t := rfl
theorem phi_2_0 : phi 2 0 = fun t => 2 * (1 - t) * (1/2 - t) := rfl
theorem phi_2_1 : phi 2 1 = fun t => 4 * t * (1 - t) := rfl
theorem phi_2_2 : phi 2 2 = fun t => 2 * t * (t - 1/2) := rfl
theorem phi_3_0 : phi 3 0 = fun t => (-9/2) * (t - 1) * (t - 2/3) * (t - 1/3) := rfl
theorem phi_3_1 : phi 3 1 = fun t => (27/2) * t * (t - 1) * (t - 2/3) := rfl
theorem phi_3_2 : phi 3 2 = fun t => -(27/2) * t * (t - 1) * (t - 1/3) := rfl
theorem phi_3_3 : phi 3 3 = fun t => (9/2) * t * (t - 1/3) * (t - 2/3) := rfl
theorem dphi_0_0 : dphi 0 0 = fun _ => 0 := rfl
theorem dphi_1_0 : dphi 1 0 = fun _ => -1 := rfl
theorem dphi_1_1 : dphi 1 1 = fun _ => 1 := rfl
theorem dphi_2_0 : dphi 2 0 = fun t => -3 + 4 * t := rfl
theorem dphi_2_1 : dphi 2 1 = fun t => 4 - 8 * t := rfl
theorem dphi_2_2 : dphi 2 2 = fun t => 4 * t - 1 := rfl
theorem dphi_3_0 : dphi 3 0 = fun t =>
  (-9/2) * ((t - 2/3) * (t - 1/3) + (t - 1) * (t - 1/3) + (t - 1) * (t - 2/3)) := rfl
theorem dphi_3_1 : dphi 3 1 = fun t =>
  (27/2) * ((t - 1) * (t - 2/3) + t * (t - 2/3) + t * (t - 1)) := rfl
theorem dphi_3_2 : dphi 3 2 = fun t =>
  -(27/2) * ((t - 1) * (t - 1/3) + t * (t - 1/3) + t * (t - 1)) := rfl
theorem dphi_3_3 : dphi 3 3 = fun t =>
  (9/2) * ((t - 1/3) * (t - 2/3) + t * (t - 2/3) + t * (t - 1/3)) := rfl

/-- Tactic-free case split on an order `q ≤ 3` and an index `j ≤ q`. -/
theorem order_cases {P : ℕ → ℕ → Prop}
    (h00 : P 0 0) (h10 : P 1 0) (h11 : P 1 1) (h20 : P 2 0) (h21 : P 2 1) (h22 : P 2 2)
    (h30 : P 3 0) (h31 : P 3 1) (h32 : P 3 2) (h33 : P 3 3)
    {q j : ℕ} (hq : q ≤ 3) (hj : j ≤ q) : P q j := by
  interval_cases q <;> interval_cases j <;> assumption

/-- symbolic polynomial of the table local to `get_elmat_time`, by index -/
def symPhi (q j : ℕ) : Poly := ((symBasis q).getD []).getD j []

theorem eval_symPhi {q j : ℕ} (hq : q ≤ 3) (hj : j ≤ q) (t : ℝ) :
    (symPhi q j).eval t = phi q j t := by
  revert t
  refine order_cases (P := fun q j => ∀ t, (symPhi q j).eval t = phi q j t)
    ?_ ?_ ?_ ?_ ?_ ?_ ?_ ?_ ?_ ?_ hq hj <;> intro t <;>
    simp [symPhi, symBasis, phi, basisInTime]

theorem hasDerivAt_phi {q j : ℕ} (hq : q ≤ 3) (hj : j ≤ q) (t : ℝ) :
    HasDerivAt (phi q j) (dphi q j t) t := by
  have key : (symPhi q j).deriv.eval t = dphi q j t := by
    revert t
    refine order_cases (P := fun q j => ∀ t, (symPhi q j).deriv.eval t = dphi q j t)
      ?_ ?_ ?_ ?_ ?_ ?_ ?_ ?_ ?_ ?_ hq hj <;> intro t <;>
      simp [symPhi, symBasis, dphi, basisInTime, Poly.mul, Poly.sub, Poly.neg, Poly.smul,
        Poly.add, Poly.C, Poly.X, Poly.deriv, Poly.derivFrom] <;> ring
  have h := Poly.hasDerivAt_deriv (symPhi q j) t
  rw [key] at h
  have e : (symPhi q j).eval = phi q j := funext fun t => eval_symPhi hq hj t
  rwa [e] at h

theorem eval_deriv_symPhi {q j : ℕ} (hq : q ≤ 3) (hj : j ≤ q) (t : ℝ) :
    (symPhi q j).deriv.eval t = dphi q j t := by
  have h := Poly.hasDerivAt_deriv (symPhi q j) t
  have e : (symPhi q j).eval = phi q j := funext fun t => eval_symPhi hq hj t
  rw [e] at h
  exact h.unique (hasDerivAt_phi hq hj t)

theorem continuous_phi {q j : ℕ} (hq : q ≤ 3) (hj : j ≤ q) : Continuous (phi q j) := by
  have e : (symPhi q j).eval = phi q j := funext fun t => eval_symPhi hq hj t
  rw [← e]; exact Poly.continuous_eval _

theorem continuous_dphi {q j : ℕ} (hq : q ≤ 3) (hj : j ≤ q) : Continuous (dphi q j) := by
  have e : (symPhi q j).deriv.eval = dphi q j := funext fun t => eval_deriv_symPhi hq hj t
  rw [← e]; exact Poly.continuous_eval _

/-- Elements of the table returned by `get_elmat_time` for supported orders. -/
def elmatOf (q qstar : ℕ) : Elmat where
  M_q_qs := fillMat (qstar+1) (q+1) fun i j =>
    Poly.integrate01 (Poly.mul (symPhi q j) (symPhi qstar i))
  M_q_q := fillMat (q+1) (q+1) fun i j => Poly.integrate01 (Poly.mul (symPhi q j) (symPhi q i))
  M_qs_qs := fillMat (qstar+1) (qstar+1) fun i j =>
    Poly.integrate01 (Poly.mul (symPhi qstar j) (symPhi qstar i))
  DM_q_qs := fillMat (qstar+1) (q+1) fun i j =>
    Poly.integrate01 (Poly.mul (symPhi q j).deriv (symPhi qstar i))
  DM_q_q := fillMat (q+1) (q+1) fun i j =>
    Poly.integrate01 (Poly.mul (symPhi q j).deriv (symPhi q i))
  DDM_q_q := fillMat (q+1) (q+1) fun i j =>
    Poly.integrate01 (Poly.mul (symPhi q j).deriv (symPhi q i).deriv)

theorem symBasis_some {q : ℕ} (hq : q ≤ 3) : ∃ l, symBasis q = some l := by
  interval_cases q <;> exact ⟨_, rfl⟩

theorem symBasis_none {q : ℕ} (hq : 3 < q) : symBasis q = none := by
  match q, hq with
  | n + 4, _ => rfl

theorem getElmatTime_ok {q qstar : ℕ} (hq : q ≤ 3) (hs : qstar ≤ 3) :
    getElmatTime q qstar = .ok (elmatOf q qstar) := by
  obtain ⟨l, hl⟩ := symBasis_some hq
  obtain ⟨m, hm⟩ := symBasis_some hs
  simp [getElmatTime, hl, hm, elmatOf, symPhi]

theorem getElmatTime_error {q qstar : ℕ} (h : ¬ (q ≤ 3 ∧ qstar ≤ 3)) :
    getElmatTime q qstar = .error .keyError := by
  by_cases hq : q ≤ 3
  · obtain ⟨l, hl⟩ := symBasis_some hq
    have hs : 3 < qstar := by omega
    simp [getElmatTime, hl, symBasis_none hs]
  · simp [getElmatTime, symBasis_none (by omega : 3 < q)]

theorem integ_mul (p r : Poly) (f g : ℝ → ℝ) (hp : ∀ t, p.eval t = f t) (hr : ∀ t, r.eval t = g t) :
    ((Poly.integrate01 (Poly.mul p r) : ℚ) : ℝ) = ∫ t in (0:ℝ)..1, f t * g t := by
  rw [Poly.integrate01_eq]; congr 1; funext t; rw [Poly.eval_mul, hp, hr]

section entries
variable {q qstar i j : ℕ} (hq : q ≤ 3) (hs : qstar ≤ 3)
include hq hs

theorem M_q_qs_eq (hi : i ≤ qstar) (hj : j ≤ q) :
    (((elmatOf q qstar).M_q_qs i j : ℚ) : ℝ) = ∫ t in (0:ℝ)..1, phi q j t * phi qstar i t := by
  simp only [elmatOf, fillMat, Nat.lt_succ_of_le hi, Nat.lt_succ_of_le hj, and_self, if_true]
  exact integ_mul _ _ _ _ (eval_symPhi hq hj) (eval_symPhi hs hi)

theorem DM_q_qs_eq (hi : i ≤ qstar) (hj : j ≤ q) :
    (((elmatOf q qstar).DM_q_qs i j : ℚ) : ℝ) = ∫ t in (0:ℝ)..1, dphi q j t * phi qstar i t := by
  simp only [elmatOf, fillMat, Nat.lt_succ_of_le hi, Nat.lt_succ_of_le hj, and_self, if_true]
  exact integ_mul _ _ _ _ (eval_deriv_symPhi hq hj) (eval_symPhi hs hi)

omit hq in
theorem M_qs_qs_eq (hi : i ≤ qstar) (hj : j ≤ qstar) :
    (((elmatOf q qstar).M_qs_qs i j : ℚ) : ℝ)
      = ∫ t in (0:ℝ)..1, phi qstar j t * phi qstar i t := by
  simp only [elmatOf, fillMat, Nat.lt_succ_of_le hi, Nat.lt_succ_of_le hj, and_self, if_true]
  exact integ_mul _ _ _ _ (eval_symPhi hs hj) (eval_symPhi hs hi)

omit hs in
theorem M_q_q_eq (hi : i ≤ q) (hj : j ≤ q) :
    (((elmatOf q qstar).M_q_q i j : ℚ) : ℝ) = ∫ t in (0:ℝ)..1, phi q j t * phi q i t := by
  simp only [elmatOf, fillMat, Nat.lt_succ_of_le hi, Nat.lt_succ_of_le hj, and_self, if_true]
  exact integ_mul _ _ _ _ (eval_symPhi hq hj) (eval_symPhi hq hi)

omit hs in
theorem DM_q_q_eq (hi : i ≤ q) (hj : j ≤ q) :
    (((elmatOf q qstar).DM_q_q i j : ℚ) : ℝ) = ∫ t in (0:ℝ)..1, dphi q j t * phi q i t := by
  simp only [elmatOf, fillMat, Nat.lt_succ_of_le hi, Nat.lt_succ_of_le hj, and_self, if_true]
  exact integ_mul _ _ _ _ (eval_deriv_symPhi hq hj) (eval_symPhi hq hi)

omit hs in
theorem DDM_q_q_eq (hi : i ≤ q) (hj : j ≤ q) :
    (((elmatOf q qstar).DDM_q_q i j : ℚ) : ℝ) = ∫ t in (0:ℝ)..1, dphi q j t * dphi q i t := by
  simp only [elmatOf, fillMat, Nat.lt_succ_of_le hi, Nat.lt_succ_of_le hj, and_self, if_true]
  exact integ_mul _ _ _ _ (eval_deriv_symPhi hq hj) (eval_deriv_symPhi hq hi)

end entries
end Dxss
