import Verif.Lemmas.TimeInt
import Verif.Spec.Rate
import Mathlib.Analysis.Calculus.Deriv.MeanValue
import Mathlib.Analysis.Calculus.LocalExtr.Rolle
import Mathlib.Analysis.Calculus.Deriv.Polynomial
import Mathlib.Algebra.Polynomial.Derivative

/-!
# Interpolation in time at the nodes of the time basis
-/

namespace Dxss
open Finset

theorem Chain.shift {m : ℕ} {a b : ℝ} {d : ℕ → ℝ → ℝ} (h : Chain (m + 1) a b d) : Chain m a b (fun k => d (k + 1)) :=
  fun k hk t ht => h (k + 1) (by omega) t ht

theorem Chain.mono {m m' : ℕ} {a b a' b' : ℝ} {d : ℕ → ℝ → ℝ} (h : Chain m a b d) (hm : m' ≤ m)
    (hs : Set.Icc a' b' ⊆ Set.Icc a b) : Chain m' a' b' d := fun k hk t ht => h k (by omega) t (hs ht)

/-- Rolle's theorem, repeatedly: a function with `m + 1` zeros has derivatives with zeros up to order `m`. -/
theorem Chain.zeros {a b : ℝ} : ∀ {m : ℕ} {d : ℕ → ℝ → ℝ}, Chain m a b d → ∀ x : ℕ → ℝ, (∀ i < m, x i < x (i + 1)) →
    (∀ i ≤ m, x i ∈ Set.Icc a b ∧ d 0 (x i) = 0) → ∀ k ≤ m, ∃ z ∈ Set.Icc a b, d k z = 0
  | 0, d, _, x, _, hz, k, hk => ⟨x 0, (hz 0 le_rfl).1, by rw [Nat.le_zero.1 hk]; exact (hz 0 le_rfl).2⟩
  | m + 1, d, h, x, hx, hz, 0, _ => ⟨x 0, (hz 0 (by omega)).1, (hz 0 (by omega)).2⟩
  | m + 1, d, h, x, hx, hz, k + 1, hk => by
    have key : ∀ i ≤ m, ∃ y, x i < y ∧ y < x (i + 1) ∧ d 1 y = 0 := by
      intro i hi
      have hsub : Set.Icc (x i) (x (i + 1)) ⊆ Set.Icc a b :=
        Set.Icc_subset_Icc (hz i (by omega)).1.1 (hz (i + 1) (by omega)).1.2
      obtain ⟨y, hy, hd⟩ := exists_hasDerivAt_eq_zero (hx i (by omega))
        (fun t ht => ((h 0 (by omega) t (hsub ht)).continuousAt).continuousWithinAt)
        ((hz i (by omega)).2.trans (hz (i + 1) (by omega)).2.symm)
        (fun t ht => h 0 (by omega) t (hsub (Set.Ioo_subset_Icc_self ht)))
      exact ⟨y, hy.1, hy.2, hd⟩
    choose! y hy1 hy2 hy3 using key
    refine Chain.zeros h.shift y (fun i hi => (hy2 i (by omega)).trans (hy1 (i + 1) (by omega))) (fun i hi => ⟨⟨?_, ?_⟩, hy3 i hi⟩)
      k (by omega)
    · exact (hz i (by omega)).1.1.trans (hy1 i hi).le
    · exact (hy2 i hi).le.trans (hz (i + 1) (by omega)).1.2

/-- A function with a zero is bounded by the bound of its derivative times the length of the interval. -/
theorem abs_le_of_zero {a b M : ℝ} {f f' : ℝ → ℝ} (hf : ∀ t ∈ Set.Icc a b, HasDerivAt f (f' t) t)
    (hM : ∀ t ∈ Set.Icc a b, |f' t| ≤ M) {z : ℝ} (hz : z ∈ Set.Icc a b) (h0 : f z = 0) :
    ∀ t ∈ Set.Icc a b, |f t| ≤ M * (b - a) := by
  intro t ht
  have := Convex.norm_image_sub_le_of_norm_hasDerivWithin_le (f := f) (f' := f') (s := Set.Icc a b) (C := M)
    (fun x hx => (hf x hx).hasDerivWithinAt) (fun x hx => by simpa [Real.norm_eq_abs] using hM x hx) (convex_Icc a b) hz ht
  rw [h0, sub_zero, Real.norm_eq_abs, Real.norm_eq_abs] at this
  refine this.trans (mul_le_mul_of_nonneg_left ?_ ((abs_nonneg _).trans (hM z hz)))
  rw [abs_le]; exact ⟨by linarith [ht.1, hz.2], by linarith [ht.2, hz.1]⟩

/-- Derivatives of a function with `m + 1` zeros and bounded derivative of order `m + 1`. -/
theorem Chain.bound {a b M : ℝ} {m : ℕ} {d : ℕ → ℝ → ℝ} (h : Chain (m + 1) a b d) {x : ℕ → ℝ} (hx : ∀ i < m, x i < x (i + 1))
    (hz : ∀ i ≤ m, x i ∈ Set.Icc a b ∧ d 0 (x i) = 0) (hM : ∀ t ∈ Set.Icc a b, |d (m + 1) t| ≤ M) :
    ∀ k ≤ m + 1, ∀ t ∈ Set.Icc a b, |d (m + 1 - k) t| ≤ M * (b - a) ^ k := by
  intro k
  induction k with
  | zero => intro _ t ht; simpa using hM t ht
  | succ k ih =>
    intro hk
    obtain ⟨z, hz', h0⟩ := Chain.zeros (h.mono (Nat.le_succ m) le_rfl) x hx hz (m + 1 - (k + 1)) (by omega)
    have e : m + 1 - (k + 1) + 1 = m + 1 - k := by omega
    have hd : ∀ t ∈ Set.Icc a b, HasDerivAt (d (m + 1 - (k + 1))) (d (m + 1 - k) t) t := fun t ht => by
      have := h (m + 1 - (k + 1)) (by omega) t ht
      rwa [e] at this
    intro t ht
    have := abs_le_of_zero hd (ih (by omega)) hz' h0 t ht
    rw [pow_succ, ← mul_assoc]; exact this

open Polynomial in
/-- The basis functions are polynomials of degree at most `q`. -/
theorem phi_poly {q j : ℕ} (hq : q ≤ 3) (hj : j ≤ q) : ∃ P : ℝ[X], P.natDegree ≤ q ∧ ∀ s, P.eval s = phi q j s := by
  refine order_cases (P := fun q j => ∃ P : ℝ[X], P.natDegree ≤ q ∧ ∀ s, P.eval s = phi q j s)
    ⟨1, by simp, fun s => by simp [phi, basisInTime]⟩
    ⟨1 - X, by compute_degree, fun s => by simp [phi, basisInTime]⟩
    ⟨X, by compute_degree, fun s => by simp [phi, basisInTime]⟩
    ⟨C 2 * X ^ 2 - C 3 * X + C 1, by compute_degree, fun s => by simp [phi, basisInTime]; ring⟩
    ⟨C 4 * X - C 4 * X ^ 2, by compute_degree, fun s => by simp [phi, basisInTime]; ring⟩
    ⟨C 2 * X ^ 2 - X, by compute_degree, fun s => by simp [phi, basisInTime]; ring⟩
    ⟨C (-9/2) * X ^ 3 + C 9 * X ^ 2 - C (11/2) * X + C 1, by compute_degree, fun s => by simp [phi, basisInTime]; ring⟩
    ⟨C (27/2) * X ^ 3 - C (45/2) * X ^ 2 + C 9 * X, by compute_degree, fun s => by simp [phi, basisInTime]; ring⟩
    ⟨C (-27/2) * X ^ 3 + C 18 * X ^ 2 - C (9/2) * X, by compute_degree, fun s => by simp [phi, basisInTime]; ring⟩
    ⟨C (9/2) * X ^ 3 - C (9/2) * X ^ 2 + X, by compute_degree, fun s => by simp [phi, basisInTime]; ring⟩ hq hj

/-- Interpolation of a function with `q + 1` derivatives at the nodes of a slab: error of the value and of the
derivative. -/
theorem interp_error {q : ℕ} (hq : q ≤ 3) (hq0 : 1 ≤ q) {dt : ℝ} (hdt : 0 < dt) (n : ℕ) {d : ℕ → ℝ → ℝ} {M : ℝ}
    (hd : Chain (q + 1) (n * dt) ((n + 1 : ℕ) * dt) d)
    (hM : ∀ t ∈ Set.Icc (n * dt) ((n + 1 : ℕ) * dt), |d (q + 1) t| ≤ M) :
    ∀ t ∈ Set.Icc (n * dt) ((n + 1 : ℕ) * dt),
      |d 0 t - ∑ j ∈ range (q + 1), phiT q dt n j t * d 0 (n * dt + j / q * dt)| ≤ M * dt ^ (q + 1) ∧
      |d 1 t - ∑ j ∈ range (q + 1), dphiT q dt n j t * d 0 (n * dt + j / q * dt)| ≤ M * dt ^ q := by
  have hP : ∀ j, ∃ P : Polynomial ℝ, P.natDegree ≤ q ∧ ∀ s, j ≤ q → P.eval s = phi q j s := fun j => by
    by_cases hj : j ≤ q
    · obtain ⟨P, h1, h2⟩ := phi_poly hq hj; exact ⟨P, h1, fun s _ => h2 s⟩
    · exact ⟨0, by simp, fun s h => absurd h hj⟩
  choose P hdeg hev using hP
  have hq' : (0 : ℝ) < q := by exact_mod_cast hq0
  -- the interpolating polynomial
  set L : Polynomial ℝ := Polynomial.C (1 / dt) * Polynomial.X - Polynomial.C (n : ℝ) with hL
  set R : Polynomial ℝ := ∑ j ∈ range (q + 1), Polynomial.C (d 0 (n * dt + j / q * dt)) * (P j).comp L with hR
  have evL : ∀ t, L.eval t = (t - n * dt) / dt := fun t => by simp [hL]; field_simp
  have evR : ∀ t, R.eval t = ∑ j ∈ range (q + 1), phiT q dt n j t * d 0 (n * dt + j / q * dt) := by
    intro t
    rw [hR, Polynomial.eval_finset_sum]
    refine sum_congr rfl fun j hj => ?_
    rw [Polynomial.eval_mul, Polynomial.eval_C, Polynomial.eval_comp, evL, hev j _ (by have := mem_range.1 hj; omega), mul_comm]; rfl
  have degR : R.natDegree ≤ q := by
    refine Polynomial.natDegree_sum_le_of_forall_le _ _ fun j _ => ?_
    refine (Polynomial.natDegree_C_mul_le _ _).trans (Polynomial.natDegree_comp_le.trans ?_)
    have : L.natDegree ≤ 1 := by rw [hL]; compute_degree
    calc (P j).natDegree * L.natDegree ≤ q * 1 := Nat.mul_le_mul (hdeg j) this
      _ = q := mul_one q
  have chR : ∀ k t, HasDerivAt (fun t => (Polynomial.derivative^[k] R).eval t) ((Polynomial.derivative^[k + 1] R).eval t) t := by
    intro k t
    rw [Function.iterate_succ_apply']
    exact Polynomial.hasDerivAt _ t
  have topR : Polynomial.derivative^[q + 1] R = 0 := Polynomial.iterate_derivative_eq_zero (by omega)
  have dR : ∀ t, (Polynomial.derivative R).eval t = ∑ j ∈ range (q + 1), dphiT q dt n j t * d 0 (n * dt + j / q * dt) := by
    intro t
    have h1 : HasDerivAt (fun t => R.eval t) ((Polynomial.derivative R).eval t) t := Polynomial.hasDerivAt R t
    have h2 : HasDerivAt (fun t => R.eval t) (∑ j ∈ range (q + 1), dphiT q dt n j t * d 0 (n * dt + j / q * dt)) t := by
      have e : (fun t => R.eval t) = fun t => ∑ j ∈ range (q + 1), phiT q dt n j t * d 0 (n * dt + j / q * dt) := funext evR
      rw [e]
      refine HasDerivAt.fun_sum fun j hj => ?_
      have hj' : j ≤ q := by have := mem_range.1 hj; omega
      have h1 : HasDerivAt (fun s : ℝ => (s - n * dt) / dt) (1 / dt) t := ((hasDerivAt_id t).sub_const _).div_const _
      have := (hasDerivAt_phi hq hj' ((t - n * dt) / dt)).comp t h1
      exact (this.congr_deriv (mul_comm _ _)).mul_const _
    exact h1.unique h2
  -- the error and its derivatives
  set e : ℕ → ℝ → ℝ := fun k t => d k t - (Polynomial.derivative^[k] R).eval t with he
  have che : Chain (q + 1) (n * dt) ((n + 1 : ℕ) * dt) e := fun k hk t ht => (hd k hk t ht).sub (chR k t)
  have nodes : ∀ i ≤ q, (n * dt + (i : ℝ) / q * dt) ∈ Set.Icc (n * dt) ((n + 1 : ℕ) * dt) ∧ e 0 (n * dt + (i : ℝ) / q * dt) = 0 := by
    intro i hi
    refine ⟨⟨?_, ?_⟩, ?_⟩
    · have : 0 ≤ (i : ℝ) / q * dt := by positivity
      linarith
    · have : (i : ℝ) / q ≤ 1 := by rw [div_le_one hq']; exact_mod_cast hi
      push_cast
      nlinarith
    · change d 0 _ - R.eval _ = 0
      rw [evR, sum_eq_single i]
      · have e1 : (n * dt + (i : ℝ) / q * dt - n * dt) / dt = (i : ℝ) / q := by field_simp; ring
        have : phi q i ((i : ℝ) / q) = 1 := by
          interval_cases q <;> interval_cases i <;> simp [phi, basisInTime] <;> norm_num
        rw [phiT, e1, this]; ring
      · intro j hj hji
        have hj' : j ≤ q := by have := mem_range.1 hj; omega
        have e1 : (n * dt + (i : ℝ) / q * dt - n * dt) / dt = (i : ℝ) / q := by field_simp; ring
        have : phi q j ((i : ℝ) / q) = 0 := by
          interval_cases q <;> interval_cases i <;> interval_cases j <;> first | exact absurd rfl hji | (simp [phi, basisInTime] <;> norm_num)
        rw [phiT, e1, this, zero_mul]
      · intro h; exact absurd (mem_range.2 (by omega)) h
  have hb := che.bound (m := q) (M := M) (x := fun i => n * dt + (i : ℝ) / q * dt)
    (fun i _ => by
      have : (i : ℝ) / q < ((i + 1 : ℕ) : ℝ) / q := by gcongr; exact_mod_cast Nat.lt_succ_self i
      nlinarith)
    nodes (fun t ht => by
      change |d (q + 1) t - (Polynomial.derivative^[q + 1] R).eval t| ≤ M
      rw [topR, Polynomial.eval_zero, sub_zero]; exact hM t ht)
  have hlen : ((n + 1 : ℕ) : ℝ) * dt - n * dt = dt := by push_cast; ring
  rw [hlen] at hb
  intro t ht
  constructor
  · have := hb (q + 1) le_rfl t ht
    rw [Nat.sub_self] at this
    rw [← evR]; exact this
  · have := hb q (by omega) t ht
    rw [show q + 1 - q = 1 by omega] at this
    rw [← dR]; exact this

end Dxss
