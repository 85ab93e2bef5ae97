import Verif.Model.Interval
import Verif.Props.Observe
import Mathlib.Analysis.Analytic.Uniqueness
import Mathlib.Algebra.Polynomial.Degree.Operations
import Mathlib.Algebra.Order.Chebyshev

/-! # Functions on an interval mesh: definiteness, and what data on one cell say about piecewise linear functions -/

namespace Dxss
open Finset

theorem anaL2_self_nonneg {a b : ℝ} (hab : a ≤ b) (f : ℝ → ℝ) : 0 ≤ ∫ y in a..b, f y * f y :=
  intervalIntegral.integral_nonneg hab fun _ _ => mul_self_nonneg _

/-- An analytic function with zero mean square on an interval vanishes. -/
theorem ana_eq_zero {a b : ℝ} (hab : a < b) {f : Ana} (h : ∫ y in a..b, f.1 y * f.1 y = 0) : f = 0 := by
  have hz := eq_zero_of_integral ((anaCont f).mul (anaCont f)) (fun t => mul_self_nonneg _) hab h
  refine Subtype.ext ?_
  refine (anaA f).eq_of_eventuallyEq (g := fun _ => (0:ℝ)) (z₀ := (a + b) / 2) analyticOnNhd_const ?_
  filter_upwards [Ioo_mem_nhds (show a < (a + b) / 2 by linarith) (show (a + b) / 2 < b by linarith)] with y hy
  exact mul_self_eq_zero.1 (hz y ⟨hy.1.le, hy.2.le⟩)

namespace Mesh1
variable (m : Mesh1)

theorem h_pos {i : ℕ} (hi : i < m.n) : 0 < m.h i := sub_pos.2 (m.lt i hi)

theorem cell_apply {i : ℕ} (hi : i < m.n) (u : m.Broken) : m.cell i u = u ⟨i, hi⟩ := by simp [cell, hi]

/-- The forms are non-negative, for an indicator function with non-negative values. -/
theorem space_psd {e : m.Broken} (he : ∀ i < m.n, ∀ y ∈ Set.Icc (m.x i) (m.x (i + 1)), 0 ≤ (m.cell i e).1 y) : m.space.Psd e where
  mass v := by
    rw [space_mass]
    exact sum_nonneg fun i hi => anaL2_self_nonneg (m.lt i (mem_range.1 hi)).le _
  stiff v := by
    rw [space_stiff]
    exact sum_nonneg fun i hi => anaL2_self_nonneg (m.lt i (mem_range.1 hi)).le _
  pen v := by
    have h0 := m.h_pos m.pos
    have h1 := m.h_pos (show m.n - 1 < m.n by have := m.pos; omega)
    rw [space_pen]
    exact add_nonneg (mul_nonneg (by positivity) (mul_self_nonneg _)) (mul_nonneg (by positivity) (mul_self_nonneg _))
  ghost v := by
    rw [space_ghost]
    refine sum_nonneg fun i hi => ?_
    have hi := mem_range.1 hi
    have h0 := m.h_pos (show i < m.n by omega)
    have h1 := m.h_pos (show i + 1 < m.n by omega)
    exact mul_nonneg (by positivity) (mul_self_nonneg _)
  h2 v := by
    rw [space_h2]
    exact sum_nonneg fun i hi => mul_nonneg (sq_nonneg _) (anaL2_self_nonneg (m.lt i (mem_range.1 hi)).le _)
  omega v := by
    rw [space_omega]
    refine sum_nonneg fun i hi => intervalIntegral.integral_nonneg (m.lt i (mem_range.1 hi)).le fun y hy => ?_
    rw [mul_assoc]
    exact mul_nonneg (he i (mem_range.1 hi) y hy) (mul_self_nonneg _)

theorem cells_zero {v : m.Broken} (h : ∀ i < m.n, ∫ y in (m.x i)..(m.x (i + 1)), (m.cell i v).1 y * (m.cell i v).1 y = 0) : v = 0 := by
  funext i
  have := ana_eq_zero (m.lt i i.2) (h i i.2)
  rwa [m.cell_apply i.2] at this

/-- The forms are definite. -/
theorem space_definite : m.space.Definite where
  mass v h := by
    rw [space_mass, sum_eq_zero_iff_of_nonneg fun i hi => anaL2_self_nonneg (m.lt i (mem_range.1 hi)).le _] at h
    exact m.cells_zero fun i hi => h i (mem_range.2 hi)
  h2 v h := by
    rw [space_h2, sum_eq_zero_iff_of_nonneg
      fun i hi => mul_nonneg (sq_nonneg _) (anaL2_self_nonneg (m.lt i (mem_range.1 hi)).le _)] at h
    exact m.cells_zero fun i hi => (mul_eq_zero.1 (h i (mem_range.2 hi))).resolve_left (pow_ne_zero _ (m.h_pos hi).ne')

/-- Bound of the boundary flux. -/
noncomputable def flux (m : Mesh1) : m.Broken →ₗ[ℝ] m.Broken →ₗ[ℝ] ℝ :=
  m.h 0 • (anaPt (m.x 0)).compl₁₂ (anaDeriv.comp (m.cell 0)) (anaDeriv.comp (m.cell 0))
    + m.h (m.n - 1) • (anaPt (m.x m.n)).compl₁₂ (anaDeriv.comp (m.cell (m.n - 1))) (anaDeriv.comp (m.cell (m.n - 1)))

theorem flux_apply (u w : m.Broken) : m.flux u w
    = m.h 0 * (deriv (m.cell 0 u).1 (m.x 0) * deriv (m.cell 0 w).1 (m.x 0))
      + m.h (m.n - 1) * (deriv (m.cell (m.n - 1) u).1 (m.x m.n) * deriv (m.cell (m.n - 1) w).1 (m.x m.n)) := rfl

theorem flux_nonneg (v : m.Broken) : 0 ≤ m.flux v v := by
  have h0 := m.h_pos m.pos
  have h1 := m.h_pos (show m.n - 1 < m.n by have := m.pos; omega)
  rw [flux_apply]
  exact add_nonneg (mul_nonneg h0.le (mul_self_nonneg _)) (mul_nonneg h1.le (mul_self_nonneg _))

theorem flux_bound (v y : m.Broken) : m.space.nit v y ^ 2 ≤ m.flux v v * m.space.pen y y := by
  have h0 := m.h_pos m.pos
  have h1 := m.h_pos (show m.n - 1 < m.n by have := m.pos; omega)
  rw [flux_apply, space_nit, space_pen]
  set a := m.h 0
  set b := m.h (m.n - 1)
  set p := deriv (m.cell (m.n - 1) v).1 (m.x m.n)
  set r := deriv (m.cell 0 v).1 (m.x 0)
  set s := (m.cell (m.n - 1) y).1 (m.x m.n)
  set t := (m.cell 0 y).1 (m.x 0)
  have e : (a * (r * r) + b * (p * p)) * (1 / a * (t * t) + 1 / b * (s * s)) - (p * s - r * t) ^ 2
      = (a * r * s + b * p * t) ^ 2 / (a * b) := by
    field_simp
    ring
  have : 0 ≤ (a * r * s + b * p * t) ^ 2 / (a * b) := by positivity
  linarith

/-! ### Piecewise linear functions -/

/-- Continuous and piecewise polynomial of degree at most `k`: the space of `("CG", k)`. -/
def lagrange (k : ℕ) : Submodule ℝ m.Broken where
  carrier := {v | (∀ i < m.n, ∃ p : Polynomial ℝ, p.natDegree ≤ k ∧ ∀ y, (m.cell i v).1 y = p.eval y) ∧
    ∀ i, i + 1 < m.n → (m.cell i v).1 (m.x (i + 1)) = (m.cell (i + 1) v).1 (m.x (i + 1))}
  add_mem' {u v} hu hv := by
    refine ⟨fun i hi => ?_, fun i hi => ?_⟩
    · obtain ⟨p, hp, ep⟩ := hu.1 i hi
      obtain ⟨r, hr, er⟩ := hv.1 i hi
      refine ⟨p + r, (Polynomial.natDegree_add_le _ _).trans (max_le hp hr), fun y => ?_⟩
      rw [map_add, Polynomial.eval_add, ← ep, ← er]; rfl
    · simp only [map_add]
      exact congrArg₂ (· + ·) (hu.2 i hi) (hv.2 i hi)
  zero_mem' := ⟨fun i hi => ⟨0, by simp, fun y => by rw [map_zero]; simp⟩, fun i hi => by simp⟩
  smul_mem' c u hu := by
    refine ⟨fun i hi => ?_, fun i hi => ?_⟩
    · obtain ⟨p, hp, ep⟩ := hu.1 i hi
      refine ⟨Polynomial.C c * p, (Polynomial.natDegree_C_mul_le _ _).trans hp, fun y => ?_⟩
      rw [map_smul, Polynomial.eval_mul, Polynomial.eval_C, ← ep]; rfl
    · simp only [map_smul]
      exact congrArg (c * ·) (hu.2 i hi)

theorem mem_lagrange {k : ℕ} {v : m.Broken} : v ∈ m.lagrange k ↔
    (∀ i < m.n, ∃ p : Polynomial ℝ, p.natDegree ≤ k ∧ ∀ y, (m.cell i v).1 y = p.eval y) ∧
    ∀ i, i + 1 < m.n → (m.cell i v).1 (m.x (i + 1)) = (m.cell (i + 1) v).1 (m.x (i + 1)) := Iff.rfl

theorem dist_le_sum_range {f : ℕ → ℝ} {n i j : ℕ} (hi : i ≤ n) (hj : j ≤ n) :
    |f i - f j| ≤ ∑ l ∈ range n, |f l - f (l + 1)| := by
  wlog h : i ≤ j generalizing i j
  · rw [abs_sub_comm]; exact this hj hi (le_of_not_ge h)
  have := dist_le_Ico_sum_dist f h
  simp only [Real.dist_eq] at this
  refine this.trans (sum_le_sum_of_subset_of_nonneg (fun l hl => ?_) fun _ _ _ => abs_nonneg _)
  rw [mem_Ico] at hl
  rw [mem_range]; omega

theorem sum_abs_sq_le (f : ℕ → ℝ) (n : ℕ) : (∑ l ∈ range n, |f l|) ^ 2 ≤ n * ∑ l ∈ range n, f l ^ 2 := by
  have := sq_sum_le_card_mul_sum_sq (s := range n) (f := fun l => |f l|)
  simpa [sq_abs] using this

theorem int_affine_sq {a b p q : ℝ} :
    ∫ y in a..b, (p + q * (y - a)) * (p + q * (y - a)) = (b - a) / 3 * (p ^ 2 + p * (p + q * (b - a)) + (p + q * (b - a)) ^ 2) := by
  have hF : ∀ y ∈ Set.uIcc a b, HasDerivAt (fun y => p ^ 2 * y + p * q * (y - a) ^ 2 + q ^ 2 / 3 * (y - a) ^ 3)
      ((p + q * (y - a)) * (p + q * (y - a))) y := by
    intro y _
    have h1 : HasDerivAt (fun y : ℝ => y - a) 1 y := (hasDerivAt_id y).sub_const a
    have := (((hasDerivAt_id y).const_mul (p ^ 2)).add ((h1.pow 2).const_mul (p * q))).add ((h1.pow 3).const_mul (q ^ 2 / 3))
    refine this.congr_deriv ?_
    norm_num; ring
  rw [intervalIntegral.integral_eq_sub_of_hasDerivAt hF (Continuous.intervalIntegrable (by fun_prop) _ _)]
  ring

/-- Nodal values. -/
noncomputable def node (v : m.Broken) (i : ℕ) : ℝ :=
  if i < m.n then (m.cell i v).1 (m.x i) else (m.cell (m.n - 1) v).1 (m.x m.n)

/-- Slopes. -/
noncomputable def slope (v : m.Broken) (i : ℕ) : ℝ := deriv (m.cell i v).1 (m.x i)

theorem linear_form {v : m.Broken} (hv : v ∈ m.lagrange 1) {i : ℕ} (hi : i < m.n) :
    (∀ y, (m.cell i v).1 y = m.node v i + m.slope v i * (y - m.x i)) ∧
    (∀ y, deriv (m.cell i v).1 y = m.slope v i) ∧ m.node v (i + 1) = m.node v i + m.slope v i * m.h i := by
  obtain ⟨hp, hc⟩ := m.mem_lagrange.1 hv
  obtain ⟨p, hd, e⟩ := hp i hi
  have e' : ∀ y, (m.cell i v).1 y = p.coeff 1 * y + p.coeff 0 := fun y => by
    rw [e, Polynomial.eq_X_add_C_of_natDegree_le_one hd]; simp
  have ed : ∀ y, deriv (m.cell i v).1 y = p.coeff 1 := fun y => by
    rw [funext e']
    exact (((hasDerivAt_id y).const_mul (p.coeff 1)).add_const (p.coeff 0)).deriv.trans (mul_one _)
  have es : m.slope v i = p.coeff 1 := ed _
  have en : m.node v i = p.coeff 1 * m.x i + p.coeff 0 := by rw [node, if_pos hi, e']
  refine ⟨fun y => by rw [e', es, en]; ring, fun y => by rw [ed, es], ?_⟩
  have : m.node v (i + 1) = (m.cell i v).1 (m.x (i + 1)) := by
    unfold node
    split
    · rename_i h; exact (hc i h).symm
    · rename_i h
      rw [show m.n - 1 = i by omega]
      exact congrArg _ (congrArg m.x (show m.n = i + 1 by omega))
  rw [this, e', es, en, h]; ring

/-- The slopes of a piecewise linear function jump by the jump of its gradient. -/
theorem jumpGrad_slope {v : m.Broken} (hv : v ∈ m.lagrange 1) {i : ℕ} (hi : i + 1 < m.n) :
    m.jumpGrad i v = m.slope v i - m.slope v (i + 1) := by
  rw [jumpGrad_apply, (m.linear_form hv (show i < m.n by omega)).2.1]; rfl

/-- A function which is piecewise linear on a mesh of length `L` is controlled by its boundary values and the jumps of its
gradient. -/
theorem linear_control_sq {v : m.Broken} (hv : v ∈ m.lagrange 1) {L b g : ℝ} (hL : m.x m.n - m.x 0 = L)
    (b1 : (m.cell 0 v).1 (m.x 0) ^ 2 + (m.cell (m.n - 1) v).1 (m.x m.n) ^ 2 ≤ b)
    (hjmp : ∑ l ∈ range (m.n - 1), m.jumpGrad l v ^ 2 ≤ g) :
    m.space.mass v v ≤ L * (10 * b + 4 * (L ^ 2 * (m.n * g))) := by
  have hsum : ∑ i ∈ range m.n, m.h i = L := by rw [← hL]; exact sum_range_sub m.x m.n
  have hhp : ∀ i < m.n, 0 < m.h i := fun i hi => m.h_pos hi
  have hn := m.pos
  have hL0 : 0 < L := hsum ▸ sum_pos (fun i hi => hhp i (mem_range.1 hi)) ⟨0, mem_range.2 hn⟩
  have hint : ∀ i < m.n, ∫ y in (m.x i)..(m.x (i + 1)), (m.cell i v).1 y * (m.cell i v).1 y
      = m.h i / 3 * (m.node v i ^ 2 + m.node v i * m.node v (i + 1) + m.node v (i + 1) ^ 2) := by
    intro i hi
    obtain ⟨f1, -, f3⟩ := m.linear_form hv hi
    simp only [f1]
    rw [int_affine_sq, f3, h]
  -- the boundary values
  rw [show (m.cell 0 v).1 (m.x 0) = m.node v 0 from (if_pos hn).symm,
    show (m.cell (m.n - 1) v).1 (m.x m.n) = m.node v m.n from (if_neg (lt_irrefl _)).symm] at b1
  have hp0 : 0 ≤ b := le_trans (by positivity) b1
  -- the slopes
  have hsq : ∑ l ∈ range (m.n - 1), (m.slope v l - m.slope v (l + 1)) ^ 2 ≤ g := by
    refine (sum_congr rfl fun l hl => ?_).trans_le hjmp
    rw [m.jumpGrad_slope hv (by have := mem_range.1 hl; omega)]
  have hg0 : 0 ≤ g := (sum_nonneg fun _ _ => sq_nonneg _).trans hsq
  have hn1 : ((m.n - 1 : ℕ) : ℝ) ≤ m.n := by exact_mod_cast Nat.sub_le _ _
  set J := ∑ l ∈ range (m.n - 1), |m.slope v l - m.slope v (l + 1)| with hJ
  have hJ0 : 0 ≤ J := sum_nonneg fun _ _ => abs_nonneg _
  have hJ2 : J ^ 2 ≤ m.n * g :=
    (sum_abs_sq_le (fun l => m.slope v l - m.slope v (l + 1)) (m.n - 1)).trans
      (mul_le_mul hn1 hsq (sum_nonneg fun _ _ => sq_nonneg _) (Nat.cast_nonneg _))
  have tel : ∑ l ∈ range m.n, m.h l * m.slope v l = m.node v m.n - m.node v 0 := by
    rw [← sum_range_sub (m.node v) m.n]
    refine sum_congr rfl fun l hl => ?_
    rw [(m.linear_form hv (mem_range.1 hl)).2.2]; ring
  have s1 : ∀ i < m.n, m.slope v i ^ 2 ≤ 4 * b / L ^ 2 + 2 * (m.n * g) := by
    intro i hi
    have h1 : |L * m.slope v i - (m.node v m.n - m.node v 0)| ≤ L * J := by
      rw [← tel, ← hsum, sum_mul, ← sum_sub_distrib, sum_mul]
      refine (abs_sum_le_sum_abs _ _).trans (sum_le_sum fun l hl => ?_)
      have hl := mem_range.1 hl
      rw [← mul_sub, abs_mul, abs_of_pos (hhp l hl)]
      exact mul_le_mul_of_nonneg_left (dist_le_sum_range (by omega) (by omega)) (hhp l hl).le
    have h2 : (L * m.slope v i - (m.node v m.n - m.node v 0)) ^ 2 ≤ L ^ 2 * J ^ 2 := by
      rw [← mul_pow, ← sq_abs]; exact pow_le_pow_left₀ (abs_nonneg _) h1 2
    have h3 : (L * m.slope v i) ^ 2 ≤ 4 * b + 2 * (L ^ 2 * J ^ 2) := by
      set D := m.node v m.n - m.node v 0
      have hD : D ^ 2 ≤ 2 * b := by nlinarith [sq_nonneg (m.node v m.n + m.node v 0)]
      nlinarith [sq_nonneg (L * m.slope v i - 2 * D)]
    have h4 : m.slope v i ^ 2 ≤ (4 * b + 2 * (L ^ 2 * J ^ 2)) / L ^ 2 := by
      rw [le_div_iff₀ (by positivity), ← mul_pow, mul_comm]; exact h3
    refine h4.trans ?_
    rw [add_div]
    have : 2 * (L ^ 2 * J ^ 2) / L ^ 2 = 2 * J ^ 2 := by field_simp
    rw [this]
    linarith
  set S2 := 4 * b / L ^ 2 + 2 * (m.n * g) with hS2
  have hS0 : 0 ≤ S2 := by positivity
  -- the nodal values
  have n1 : ∀ i ≤ m.n, m.node v i ^ 2 ≤ 2 * b + 2 * (L ^ 2 * S2) := by
    intro i hi
    have h1 := dist_le_sum_range (f := m.node v) (n := m.n) (i := i) (j := 0) hi hn.le
    have h2 : ∑ l ∈ range m.n, |m.node v l - m.node v (l + 1)| ≤ L * Real.sqrt S2 := by
      rw [← hsum, sum_mul]
      refine sum_le_sum fun l hl => ?_
      have hl := mem_range.1 hl
      rw [(m.linear_form hv hl).2.2, abs_sub_comm, add_sub_cancel_left, abs_mul, abs_of_pos (hhp l hl), mul_comm]
      exact mul_le_mul_of_nonneg_left (Real.abs_le_sqrt (s1 l hl)) (hhp l hl).le
    have h3 : (m.node v i - m.node v 0) ^ 2 ≤ L ^ 2 * S2 := by
      calc (m.node v i - m.node v 0) ^ 2 = |m.node v i - m.node v 0| ^ 2 := (sq_abs _).symm
        _ ≤ (L * Real.sqrt S2) ^ 2 := pow_le_pow_left₀ (abs_nonneg _) (h1.trans h2) 2
        _ = L ^ 2 * S2 := by rw [mul_pow, Real.sq_sqrt hS0]
    nlinarith [sq_nonneg (m.node v i - 2 * m.node v 0), sq_nonneg (m.node v m.n)]
  set M2 := 2 * b + 2 * (L ^ 2 * S2) with hM2
  have hfin : m.space.mass v v ≤ L * M2 := by
    rw [space_mass, ← hsum, sum_mul]
    refine sum_le_sum fun i hi => ?_
    have hi := mem_range.1 hi
    rw [hint i hi]
    have := n1 i hi.le; have := n1 (i + 1) hi
    have hp := hhp i hi
    nlinarith [mul_nonneg hp.le (sq_nonneg (m.node v i - m.node v (i + 1)))]
  refine hfin.trans (mul_le_mul_of_nonneg_left (le_of_eq ?_) hL0.le)
  rw [hM2, hS2]
  field_simp
  ring

/-- A function which is piecewise linear on a mesh of length `L` with cells of diameter between `hm` and `hM` is controlled by its
boundary values and the jumps of its gradient. -/
theorem linear_control {v : m.Broken} (hv : v ∈ m.lagrange 1) {hm hM L : ℝ} (h0 : 0 < hm)
    (hh : ∀ i < m.n, hm ≤ m.h i ∧ m.h i ≤ hM) (hL : m.x m.n - m.x 0 = L) :
    m.space.mass v v ≤ L * (10 * (hM * m.space.pen v v) + 4 * (L ^ 2 * (m.n * (m.space.ghost v v / hm)))) := by
  have hn := m.pos
  refine m.linear_control_sq hv hL ?_ ?_
  · have k0 := hh 0 hn; have k1 := hh (m.n - 1) (by omega)
    have p0 := m.h_pos hn; have p1 := m.h_pos (show m.n - 1 < m.n by omega)
    have key : ∀ h a : ℝ, 0 < h → h ≤ hM → a ^ 2 ≤ hM * (1 / h * (a * a)) := by
      intro h a h1 h2
      have : hM * (1 / h * (a * a)) = hM / h * a ^ 2 := by ring
      rw [this]
      exact le_mul_of_one_le_left (sq_nonneg a) ((one_le_div h1).2 h2)
    rw [space_pen, mul_add]
    exact add_le_add (key _ _ p0 k0.2) (key _ _ p1 k1.2)
  · rw [le_div_iff₀ h0, space_ghost, sum_mul]
    refine sum_le_sum fun i hi => ?_
    have hi := mem_range.1 hi
    have := (hh i (by omega)).1; have := (hh (i + 1) (by omega)).1
    nlinarith [sq_nonneg (m.jumpGrad i v)]

/-! ### Linear elements -/

theorem hat_poly (s i : ℕ) (hi : i < m.n) : ∃ p : Polynomial ℝ, p.natDegree ≤ 1 ∧ ∀ y, (m.cell i (m.hat s)).1 y = p.eval y := by
  have lin : ∀ a b c : ℝ, ∃ p : Polynomial ℝ, p.natDegree ≤ 1 ∧ ∀ y, (line a b c).1 y = p.eval y := by
    intro a b c
    refine ⟨Polynomial.C c * Polynomial.X + Polynomial.C (b - c * a), Polynomial.natDegree_linear_le, fun y => ?_⟩
    simp only [line, Polynomial.eval_add, Polynomial.eval_mul, Polynomial.eval_C, Polynomial.eval_X]; ring
  rw [m.cell_apply hi]
  unfold hat
  split
  · exact lin _ _ _
  split
  · exact lin _ _ _
  exact ⟨0, by simp, fun y => by simp⟩

theorem hat_left (s : ℕ) {i : ℕ} (hi : i < m.n) : (m.cell i (m.hat s)).1 (m.x i) = if s = i then 1 else 0 := by
  rw [m.cell_apply hi]
  unfold hat
  by_cases h : s = i
  · simp [h, line]
  · by_cases h' : s = i + 1 <;> simp [h, h', line]

theorem hat_right (s : ℕ) {i : ℕ} (hi : i < m.n) : (m.cell i (m.hat s)).1 (m.x (i + 1)) = if s = i + 1 then 1 else 0 := by
  have hh : m.x (i + 1) - m.x i ≠ 0 := (m.h_pos hi).ne'
  rw [m.cell_apply hi]
  unfold hat
  by_cases h : s = i
  · simp [h, line, Mesh1.h, hh]
  · by_cases h' : s = i + 1 <;> simp [h, h', line, Mesh1.h, hh]

theorem hat_mem (s : ℕ) : m.hat s ∈ m.lagrange 1 :=
  m.mem_lagrange.2 ⟨fun i hi => m.hat_poly s i hi, fun i hi => by rw [m.hat_right s (by omega), m.hat_left s hi]⟩

theorem hat_indep {a : ℕ → ℝ} (h : ∑ s ∈ range (m.n + 1), a s • m.hat s = 0) : ∀ s < m.n + 1, a s = 0 := by
  intro s hs
  have ev : ∀ (i : ℕ) (y : ℝ), ∑ s ∈ range (m.n + 1), a s * (m.cell i (m.hat s)).1 y = 0 := by
    intro i y
    have := congrArg (fun v => anaEval y (m.cell i v)) h
    simpa [map_sum, anaEval] using this
  rcases Nat.lt_succ_iff_lt_or_eq.1 hs with hs' | rfl
  · have := ev s (m.x s)
    simpa [m.hat_left _ hs', hs] using this
  · have hn := m.pos
    have h1 : m.n - 1 < m.n := by omega
    have := ev (m.n - 1) (m.x (m.n - 1 + 1))
    rw [sum_congr rfl fun s _ => by rw [m.hat_right s h1, Nat.sub_add_cancel hn]] at this
    simpa using this

/-! ### Functions of the coordinate -/

theorem mass_fn (f g : Ana) : m.space.mass (m.fn f) (m.fn g) = ∫ y in (m.x 0)..(m.x m.n), f.1 y * g.1 y := by
  rw [space_mass, sum_congr rfl fun i hi => show _ = ∫ y in (m.x i)..(m.x (i + 1)), f.1 y * g.1 y by
    rw [m.cell_apply (mem_range.1 hi), m.cell_apply (mem_range.1 hi)]; rfl]
  exact intervalIntegral.sum_integral_adjacent_intervals (f := fun y => f.1 y * g.1 y)
    fun i _ => ((anaCont f).mul (anaCont g)).intervalIntegrable _ _

end Mesh1

theorem int_sin_sq : ∫ y in (0:ℝ)..1, Real.sin (2 * Real.pi * y) * Real.sin (2 * Real.pi * y) = 1 / 2 := by
  have hF : ∀ y ∈ Set.uIcc (0:ℝ) 1, HasDerivAt (fun y => 1 / 2 * y - 1 / (4 * Real.pi) * (Real.sin (2 * Real.pi * y) * Real.cos (2 * Real.pi * y)))
      (Real.sin (2 * Real.pi * y) * Real.sin (2 * Real.pi * y)) y := by
    intro y _
    have h0 : HasDerivAt (fun y : ℝ => 2 * Real.pi * y) (2 * Real.pi) y := by
      simpa using (hasDerivAt_id y).const_mul (2 * Real.pi)
    have := ((hasDerivAt_id y).const_mul (1 / 2)).sub (((h0.sin).mul (h0.cos)).const_mul (1 / (4 * Real.pi)))
    refine this.congr_deriv ?_
    have hc := Real.sin_sq_add_cos_sq (2 * Real.pi * y)
    have hp := Real.pi_ne_zero
    field_simp
    linear_combination (-4) * hc
  rw [intervalIntegral.integral_eq_sub_of_hasDerivAt hF (Continuous.intervalIntegrable (by fun_prop) _ _)]
  simp

theorem Mesh1.sin_norm {n : ℕ} (hn : 0 < n) (c : ℝ) :
    (Mesh1.unit n hn).space.mass ((Mesh1.unit n hn).fn (anaSin c)) ((Mesh1.unit n hn).fn (anaSin c)) = c ^ 2 / 2 := by
  have hn' : (n : ℝ) ≠ 0 := by exact_mod_cast hn.ne'
  rw [mass_fn]
  have e0 : (Mesh1.unit n hn).x 0 = 0 := by simp [Mesh1.unit]
  have e1 : (Mesh1.unit n hn).x (Mesh1.unit n hn).n = 1 := by simp [Mesh1.unit, hn']
  rw [e0, e1]
  have : ∀ y : ℝ, (anaSin c).1 y * (anaSin c).1 y = c ^ 2 * (Real.sin (2 * Real.pi * y) * Real.sin (2 * Real.pi * y)) := fun y => by
    simp only [anaSin]; ring
  simp only [this]
  rw [intervalIntegral.integral_const_mul, int_sin_sq]; ring

end Dxss
