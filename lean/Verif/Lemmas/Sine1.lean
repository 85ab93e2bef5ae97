import Verif.Lemmas.Interval
import Verif.Lemmas.LinInterp
import Mathlib.Analysis.Real.Pi.Bounds

/-!
# Interpolation by linear elements on an interval mesh; Green's formula
-/

namespace Dxss
open Finset

namespace Mesh1
variable (m : Mesh1)

/-! ### Green's formula -/

/-- Broken functions which are continuous. -/
def Conforming (y : m.Broken) : Prop := ∀ i, i + 1 < m.n → (m.cell i y).1 (m.x (i + 1)) = (m.cell (i + 1) y).1 (m.x (i + 1))

theorem conforming_of_lagrange {k : ℕ} {y : m.Broken} (h : y ∈ m.lagrange k) : m.Conforming y := (m.mem_lagrange.1 h).2

theorem cell_fn {i : ℕ} (hi : i < m.n) (f : Ana) : m.cell i (m.fn f) = f := by rw [m.cell_apply hi]; rfl

theorem green (f : Ana) {y : m.Broken} (hy : m.Conforming y) :
    m.space.mass (m.fn (anaDeriv (anaDeriv f))) y + m.space.stiff (m.fn f) y - m.space.nit (m.fn f) y = 0 := by
  have hn := m.pos
  -- end values of `f' y` on the cells
  let c : ℕ → ℝ := fun i => if i < m.n then deriv f.1 (m.x i) * (m.cell i y).1 (m.x i)
    else deriv f.1 (m.x m.n) * (m.cell (m.n - 1) y).1 (m.x m.n)
  have hc : ∀ i < m.n, c (i + 1) = deriv f.1 (m.x (i + 1)) * (m.cell i y).1 (m.x (i + 1)) := by
    intro i hi
    by_cases h : i + 1 < m.n
    · simp only [c, if_pos h, hy i h]
    · obtain rfl : i = m.n - 1 := by omega
      simp only [c, Nat.sub_add_cancel hn, lt_irrefl, if_false]
  rw [space_mass, space_stiff, space_nit, m.cell_fn (by omega), m.cell_fn hn, ← sum_add_distrib]
  have key : ∀ i ∈ range m.n, (∫ z in (m.x i)..(m.x (i + 1)), (m.cell i (m.fn (anaDeriv (anaDeriv f)))).1 z * (m.cell i y).1 z)
      + ∫ z in (m.x i)..(m.x (i + 1)), deriv (m.cell i (m.fn f)).1 z * deriv (m.cell i y).1 z = c (i + 1) - c i := by
    intro i hi
    have hi := mem_range.1 hi
    rw [m.cell_fn hi, m.cell_fn hi, hc i hi]
    have e : c i = deriv f.1 (m.x i) * (m.cell i y).1 (m.x i) := if_pos hi
    have i1 : IntervalIntegrable (fun z => (anaDeriv (anaDeriv f)).1 z * (m.cell i y).1 z) MeasureTheory.volume (m.x i) (m.x (i + 1)) :=
      ((anaCont _).mul (anaCont _)).intervalIntegrable _ _
    have i2 : IntervalIntegrable (fun z => deriv f.1 z * deriv (m.cell i y).1 z) MeasureTheory.volume (m.x i) (m.x (i + 1)) :=
      ((anaCont (anaDeriv f)).mul (anaCont (anaDeriv (m.cell i y)))).intervalIntegrable _ _
    rw [e, ← intervalIntegral.integral_add i1 i2]
    have h := intervalIntegral.integral_eq_sub_of_hasDerivAt (a := m.x i) (b := m.x (i + 1))
      (f := fun z => (anaDeriv f).1 z * (m.cell i y).1 z)
      (f' := fun z => (anaDeriv (anaDeriv f)).1 z * (m.cell i y).1 z + deriv f.1 z * deriv (m.cell i y).1 z)
      (fun z _ => ((anaDiff (anaDeriv f) z).hasDerivAt.mul (anaDiff (m.cell i y) z).hasDerivAt))
      (i1.add i2)
    exact h
  rw [sum_congr rfl key, sum_range_sub]
  have e0 : c 0 = deriv f.1 (m.x 0) * (m.cell 0 y).1 (m.x 0) := if_pos hn
  have e1 : c m.n = deriv f.1 (m.x m.n) * (m.cell (m.n - 1) y).1 (m.x m.n) := if_neg (lt_irrefl _)
  rw [e0, e1]
  ring

/-! ### The interpolant -/

noncomputable def interp (f : Ana) : m.Broken := ∑ s ∈ range (m.n + 1), f.1 (m.x s) • m.hat s

theorem hat_cell (s : ℕ) {i : ℕ} (hi : i < m.n) (y : ℝ) : (m.cell i (m.hat s)).1 y
    = (if s = i then (m.x (i + 1) - y) / m.h i else 0) + if s = i + 1 then (y - m.x i) / m.h i else 0 := by
  have hh : m.h i ≠ 0 := (m.h_pos hi).ne'
  rw [m.cell_apply hi]
  unfold hat
  by_cases h : s = i
  · have : m.x (i + 1) = m.h i + m.x i := by unfold Mesh1.h; ring
    simp only [h, if_true, line, this]
    rw [if_neg (by omega)]
    field_simp
    ring
  · by_cases h' : s = i + 1 <;> simp [h, h', line]
    field_simp

theorem interp_cell (f : Ana) {i : ℕ} (hi : i < m.n) (y : ℝ) : (m.cell i (m.interp f)).1 y
    = (m.x (i + 1) - y) / m.h i * f.1 (m.x i) + (y - m.x i) / m.h i * f.1 (m.x (i + 1)) := by
  have e : (m.cell i (m.interp f)).1 y = ∑ s ∈ range (m.n + 1), f.1 (m.x s) * (m.cell i (m.hat s)).1 y := by
    have : anaEval y (m.cell i (m.interp f)) = ∑ s ∈ range (m.n + 1), f.1 (m.x s) * anaEval y (m.cell i (m.hat s)) := by
      simp [interp, map_sum]
    exact this
  rw [e]
  simp only [m.hat_cell _ hi, mul_add, mul_ite, mul_zero, sum_add_distrib, sum_ite_eq', mem_range]
  rw [if_pos (by omega), if_pos (by omega)]
  ring

theorem interp_deriv (f : Ana) {i : ℕ} (hi : i < m.n) (y : ℝ) : deriv (m.cell i (m.interp f)).1 y
    = (f.1 (m.x (i + 1)) - f.1 (m.x i)) / m.h i := by
  rw [show (m.cell i (m.interp f)).1 = _ from funext (m.interp_cell f hi)]
  have h1 := ((((hasDerivAt_id y).const_sub (m.x (i + 1))).div_const (m.h i)).mul_const (f.1 (m.x i)))
  have h2 := ((((hasDerivAt_id y).sub_const (m.x i)).div_const (m.h i)).mul_const (f.1 (m.x (i + 1))))
  refine (h1.add h2).deriv.trans ?_
  ring

theorem interp_deriv2 (f : Ana) {i : ℕ} (hi : i < m.n) : anaDeriv (anaDeriv (m.cell i (m.interp f))) = 0 := by
  refine Subtype.ext (funext fun y => ?_)
  change deriv (deriv (m.cell i (m.interp f)).1) y = 0
  rw [show deriv (m.cell i (m.interp f)).1 = fun _ => _ from funext (m.interp_deriv f hi)]
  simp

theorem interp_err (f : Ana) {M : ℝ} (hM : ∀ y, |(anaDeriv (anaDeriv f)).1 y| ≤ M) {i : ℕ} (hi : i < m.n) {y : ℝ}
    (hy : y ∈ Set.Icc (m.x i) (m.x (i + 1))) :
    |(m.cell i (m.fn f - m.interp f)).1 y| ≤ M * m.h i ^ 2 / 8 ∧ |deriv (m.cell i (m.fn f - m.interp f)).1 y| ≤ M * m.h i / 2 := by
  have h := lin_interp (f := f.1) (f' := (anaDeriv f).1) (f'' := (anaDeriv (anaDeriv f)).1) (fun y => (anaDiff f y).hasDerivAt)
    (fun y => (anaDiff (anaDeriv f) y).hasDerivAt) hM (m.lt i hi) hy
  have e1 : (m.cell i (m.fn f - m.interp f)).1 y = f.1 y - (m.cell i (m.interp f)).1 y := by
    rw [map_sub, m.cell_fn hi]; rfl
  have e2 : deriv (m.cell i (m.fn f - m.interp f)).1 y = deriv f.1 y - deriv (m.cell i (m.interp f)).1 y := by
    rw [map_sub, m.cell_fn hi]
    exact deriv_sub (anaDiff f y) (anaDiff _ y)
  rw [e1, e2, m.interp_cell f hi, m.interp_deriv f hi]
  exact h

theorem interp_node {f : Ana} {i : ℕ} (hi : i < m.n) :
    (m.cell i (m.fn f - m.interp f)).1 (m.x i) = 0 ∧ (m.cell i (m.fn f - m.interp f)).1 (m.x (i + 1)) = 0 := by
  have hh : m.h i ≠ 0 := (m.h_pos hi).ne'
  have e1 : ∀ y, (m.cell i (m.fn f - m.interp f)).1 y = f.1 y - (m.cell i (m.interp f)).1 y := by
    intro y; rw [map_sub, m.cell_fn hi]; rfl
  rw [e1, e1, m.interp_cell f hi, m.interp_cell f hi, ← show m.h i = m.x (i + 1) - m.x i from rfl, div_self hh]
  simp

end Mesh1

theorem int_sq_le {a b c : ℝ} (hab : a ≤ b) {g : ℝ → ℝ} (hg : Continuous g) (h : ∀ y ∈ Set.Icc a b, |g y| ≤ c) :
    ∫ y in a..b, g y * g y ≤ c ^ 2 * (b - a) := by
  have := intervalIntegral.integral_mono_on hab (μ := MeasureTheory.volume) ((hg.mul hg).intervalIntegrable a b)
    (intervalIntegrable_const (c := c ^ 2))
    fun y hy => show g y * g y ≤ c ^ 2 by
      rw [← sq, ← sq_abs]; exact pow_le_pow_left₀ (abs_nonneg _) (h y hy) 2
  refine this.trans (le_of_eq ?_)
  rw [intervalIntegral.integral_const, smul_eq_mul, mul_comm]

/-! ### The sine on the unit interval -/

section
variable {n : ℕ} (hn : 0 < n)

/-- `2π` -/
noncomputable def tau : ℝ := 2 * Real.pi

theorem tau_bounds : 0 < tau ∧ tau ≤ 6.2832 := by
  have := Real.pi_pos; have := Real.pi_lt_d4
  unfold tau
  constructor <;> linarith

theorem anaSin_deriv (c y : ℝ) : deriv (anaSin c).1 y = c * (Real.cos (tau * y) * tau) := by
  have h0 : HasDerivAt (fun y : ℝ => tau * y) tau y := by simpa using (hasDerivAt_id y).const_mul tau
  exact (((Real.hasDerivAt_sin _).comp y h0).const_mul c).deriv

theorem anaSin_deriv2 (c : ℝ) : anaDeriv (anaDeriv (anaSin c)) = (-tau ^ 2) • anaSin c := by
  refine Subtype.ext (funext fun y => ?_)
  change deriv (deriv (anaSin c).1) y = _
  rw [funext (anaSin_deriv c)]
  have h0 : HasDerivAt (fun y : ℝ => tau * y) tau y := by simpa using (hasDerivAt_id y).const_mul tau
  refine (((Real.hasDerivAt_cos _).comp y h0).mul_const tau |>.const_mul c).deriv.trans ?_
  change _ = -tau ^ 2 * (c * Real.sin (tau * y))
  ring

theorem sin_deriv2_le (y : ℝ) : |(anaDeriv (anaDeriv (anaSin 1))).1 y| ≤ tau ^ 2 := by
  rw [anaSin_deriv2]
  change |-tau ^ 2 * (1 * Real.sin (2 * Real.pi * y))| ≤ _
  rw [one_mul, neg_mul, abs_neg, abs_mul, abs_of_nonneg (sq_nonneg _)]
  exact mul_le_of_le_one_right (sq_nonneg _) (Real.abs_sin_le_one _)

/-- The sine, its interpolant, the error. -/
noncomputable def sin1 : (Mesh1.unit n hn).Broken := (Mesh1.unit n hn).fn (anaSin 1)
noncomputable def sinI : (Mesh1.unit n hn).Broken := (Mesh1.unit n hn).interp (anaSin 1)
noncomputable def sinE : (Mesh1.unit n hn).Broken := sin1 hn - sinI hn

theorem unit_step (i : ℕ) : (Mesh1.unit n hn).h i = 1 / n := by
  have : (n:ℝ) ≠ 0 := by exact_mod_cast hn.ne'
  simp only [Mesh1.h, Mesh1.unit]
  push_cast
  field_simp
  ring

theorem sinE_cell {i : ℕ} (hi : i < n) {y : ℝ} (hy : y ∈ Set.Icc ((Mesh1.unit n hn).x i) ((Mesh1.unit n hn).x (i + 1))) :
    |((Mesh1.unit n hn).cell i (sinE hn)).1 y| ≤ tau ^ 2 * (1 / n) ^ 2 / 8 ∧
    |deriv ((Mesh1.unit n hn).cell i (sinE hn)).1 y| ≤ tau ^ 2 * (1 / n) / 2 := by
  have := (Mesh1.unit n hn).interp_err (anaSin 1) sin_deriv2_le hi hy
  rwa [unit_step] at this

include hn in
theorem sum_cells_le {a : ℕ → ℝ} {c : ℝ} (h : ∀ i < n, a i ≤ c * (1 / n)) : ∑ i ∈ range n, a i ≤ c := by
  have hn' : (n:ℝ) ≠ 0 := by exact_mod_cast hn.ne'
  refine (sum_le_sum fun i hi => h i (mem_range.1 hi)).trans (le_of_eq ?_)
  rw [sum_const, card_range, nsmul_eq_mul]
  field_simp

theorem cell_int_le {i : ℕ} {g : ℝ → ℝ} (hg : Continuous g) {c : ℝ} (hi : i < n)
    (h : ∀ y ∈ Set.Icc ((Mesh1.unit n hn).x i) ((Mesh1.unit n hn).x (i + 1)), |g y| ≤ c) :
    ∫ y in ((Mesh1.unit n hn).x i)..((Mesh1.unit n hn).x (i + 1)), g y * g y ≤ c ^ 2 * (1 / n) := by
  have := int_sq_le ((Mesh1.unit n hn).lt i hi).le hg h
  rwa [show (Mesh1.unit n hn).x (i + 1) - (Mesh1.unit n hn).x i = 1 / n from unit_step hn i] at this

theorem mass_sinE : (Mesh1.unit n hn).space.mass (sinE hn) (sinE hn) ≤ (tau ^ 2 * (1 / n) ^ 2 / 8) ^ 2 := by
  rw [Mesh1.space_mass]
  exact sum_cells_le hn fun i hi => cell_int_le hn (anaCont _) hi fun y hy => (sinE_cell hn hi hy).1

theorem stiff_sinE : (Mesh1.unit n hn).space.stiff (sinE hn) (sinE hn) ≤ (tau ^ 2 * (1 / n) / 2) ^ 2 := by
  rw [Mesh1.space_stiff]
  exact sum_cells_le hn fun i hi => cell_int_le hn (anaCont (anaDeriv _)) hi fun y hy => (sinE_cell hn hi hy).2

theorem mass_sin1 : (Mesh1.unit n hn).space.mass (sin1 hn) (sin1 hn) = 1 / 2 := by
  have := Mesh1.sin_norm hn 1
  rw [sin1, this]; norm_num

theorem sin1_deriv_le {i : ℕ} (hi : i < n) (y : ℝ) : |deriv ((Mesh1.unit n hn).cell i (sin1 hn)).1 y| ≤ tau := by
  rw [sin1, (Mesh1.unit n hn).cell_fn hi, anaSin_deriv, one_mul, abs_mul, abs_of_pos tau_bounds.1]
  exact mul_le_of_le_one_left tau_bounds.1.le (Real.abs_cos_le_one _)

theorem stiff_sin1 : (Mesh1.unit n hn).space.stiff (sin1 hn) (sin1 hn) ≤ tau ^ 2 := by
  rw [Mesh1.space_stiff]
  exact sum_cells_le hn fun i hi => cell_int_le hn (anaCont (anaDeriv _)) hi fun y hy => sin1_deriv_le hn hi y

theorem flux_le {v : (Mesh1.unit n hn).Broken} {c : ℝ} (h : ∀ i < n, ∀ y ∈ Set.Icc ((Mesh1.unit n hn).x i) ((Mesh1.unit n hn).x (i + 1)),
    |deriv ((Mesh1.unit n hn).cell i v).1 y| ≤ c) : (Mesh1.unit n hn).flux v v ≤ 2 * (1 / n) * c ^ 2 := by
  have h0 := h 0 hn _ (Set.left_mem_Icc.2 ((Mesh1.unit n hn).lt 0 hn).le)
  have h1 := h (n - 1) (by omega) _ (Set.right_mem_Icc.2 ((Mesh1.unit n hn).lt (n - 1) (show n - 1 < n by omega)).le)
  have sq : ∀ {z : ℝ}, |z| ≤ c → z * z ≤ c ^ 2 := fun {z} hz => by
    rw [← sq, ← sq_abs]; exact pow_le_pow_left₀ (abs_nonneg _) hz 2
  rw [Mesh1.flux_apply, unit_step, unit_step]
  have hp : (0:ℝ) ≤ 1 / n := by positivity
  have e : (Mesh1.unit n hn).x (Mesh1.unit n hn).n = (Mesh1.unit n hn).x (n - 1 + 1) := by rw [Nat.sub_add_cancel hn]; rfl
  rw [e]
  have a0 := mul_le_mul_of_nonneg_left (sq h0) hp
  have a1 := mul_le_mul_of_nonneg_left (sq h1) hp
  change _ + 1 / (n:ℝ) * (deriv ((Mesh1.unit n hn).cell (n - 1) v).1 _ * deriv ((Mesh1.unit n hn).cell (n - 1) v).1 _) ≤ _
  linarith

theorem flux_sin1 : (Mesh1.unit n hn).flux (sin1 hn) (sin1 hn) ≤ 2 * (1 / n) * tau ^ 2 :=
  flux_le hn fun i hi y _ => sin1_deriv_le hn hi y

theorem flux_sinE : (Mesh1.unit n hn).flux (sinE hn) (sinE hn) ≤ 2 * (1 / n) * (tau ^ 2 * (1 / n) / 2) ^ 2 :=
  flux_le hn fun i hi y hy => (sinE_cell hn hi hy).2

theorem pen_sin1 (v : (Mesh1.unit n hn).Broken) : (Mesh1.unit n hn).space.pen (sin1 hn) v = 0 := by
  have h0 : (anaSin 1).1 ((Mesh1.unit n hn).x 0) = 0 := by simp [anaSin, Mesh1.unit]
  have h1 : (anaSin 1).1 ((Mesh1.unit n hn).x (Mesh1.unit n hn).n) = 0 := by
    have : (n:ℝ) ≠ 0 := by exact_mod_cast hn.ne'
    simp [anaSin, Mesh1.unit, div_self this]
  rw [Mesh1.space_pen, sin1, (Mesh1.unit n hn).cell_fn hn, (Mesh1.unit n hn).cell_fn (show (Mesh1.unit n hn).n - 1 < n from Nat.sub_lt hn one_pos), h0, h1]
  ring

theorem pen_sinE (v : (Mesh1.unit n hn).Broken) : (Mesh1.unit n hn).space.pen (sinE hn) v = 0 := by
  have h0 := ((Mesh1.unit n hn).interp_node (f := anaSin 1) (i := 0) hn).1
  have h1 := ((Mesh1.unit n hn).interp_node (f := anaSin 1) (i := n - 1) (show n - 1 < n by omega)).2
  rw [show n - 1 + 1 = (Mesh1.unit n hn).n by rw [Nat.sub_add_cancel hn]; rfl] at h1
  rw [Mesh1.space_pen, show (Mesh1.unit n hn).cell 0 (sinE hn) = _ from rfl]
  change _ * ((((Mesh1.unit n hn).cell 0) ((Mesh1.unit n hn).fn (anaSin 1) - (Mesh1.unit n hn).interp (anaSin 1))).1 _ * _)
    + _ * ((((Mesh1.unit n hn).cell (n - 1)) ((Mesh1.unit n hn).fn (anaSin 1) - (Mesh1.unit n hn).interp (anaSin 1))).1 _ * _) = 0
  rw [h0, h1]
  ring

theorem ghost_sin1 (v : (Mesh1.unit n hn).Broken) : (Mesh1.unit n hn).space.ghost (sin1 hn) v = 0 := by
  rw [Mesh1.space_ghost]
  refine sum_eq_zero fun i hi => ?_
  have hi : i < n - 1 := mem_range.1 hi
  rw [Mesh1.jumpGrad_apply, sin1, (Mesh1.unit n hn).cell_fn (show i < n by omega), (Mesh1.unit n hn).cell_fn (show i + 1 < n by omega)]
  ring

theorem ghost_sinE : (Mesh1.unit n hn).space.ghost (sinE hn) (sinE hn) ≤ tau ^ 4 * (1 / n) ^ 2 := by
  have hn' : (0:ℝ) < n := by exact_mod_cast hn
  rw [Mesh1.space_ghost]
  have key : ∀ i ∈ range (n - 1), 1 / 2 * ((Mesh1.unit n hn).h i + (Mesh1.unit n hn).h (i + 1))
      * ((Mesh1.unit n hn).jumpGrad i (sinE hn) * (Mesh1.unit n hn).jumpGrad i (sinE hn)) ≤ tau ^ 4 * (1 / n) ^ 2 * (1 / n) := by
    intro i hi
    have hi : i < n - 1 := mem_range.1 hi
    have h0 := (sinE_cell hn (show i < n by omega) (Set.right_mem_Icc.2 ((Mesh1.unit n hn).lt i (show i < n by omega)).le)).2
    have h1 := (sinE_cell hn (show i + 1 < n by omega) (Set.left_mem_Icc.2 ((Mesh1.unit n hn).lt (i + 1) (show i + 1 < n by omega)).le)).2
    have h2 : |(Mesh1.unit n hn).jumpGrad i (sinE hn)| ≤ tau ^ 2 * (1 / n) := by
      rw [Mesh1.jumpGrad_apply]
      refine (abs_sub _ _).trans ?_
      linarith
    rw [unit_step, unit_step, ← sq, ← sq_abs]
    have := pow_le_pow_left₀ (abs_nonneg _) h2 2
    have hp : (0:ℝ) ≤ 1 / n := by positivity
    calc _ = 1 / (n:ℝ) * |(Mesh1.unit n hn).jumpGrad i (sinE hn)| ^ 2 := by ring
      _ ≤ 1 / n * (tau ^ 2 * (1 / n)) ^ 2 := mul_le_mul_of_nonneg_left this hp
      _ = _ := by ring
  change ∑ i ∈ range (n - 1), _ ≤ _
  refine (sum_le_sum key).trans ?_
  rw [sum_const, card_range, nsmul_eq_mul]
  have h1 : ((n - 1 : ℕ) : ℝ) ≤ n := by exact_mod_cast Nat.sub_le n 1
  calc ((n - 1 : ℕ) : ℝ) * (tau ^ 4 * (1 / n) ^ 2 * (1 / n)) ≤ n * (tau ^ 4 * (1 / n) ^ 2 * (1 / n)) := by gcongr
    _ = _ := by field_simp

theorem h2_unit (u v : (Mesh1.unit n hn).Broken) :
    (Mesh1.unit n hn).space.h2 u v = (1 / n) ^ 2 * (Mesh1.unit n hn).space.mass u v := by
  rw [Mesh1.space_h2, Mesh1.space_mass, mul_sum]
  simp only [unit_step]

theorem lap_sin1 : (Mesh1.unit n hn).space.lap (sin1 hn) = (-tau ^ 2) • sin1 hn := by
  funext i
  change anaDeriv (anaDeriv (anaSin 1)) = (-tau ^ 2) • anaSin 1
  exact anaSin_deriv2 1

theorem lap_sinI : (Mesh1.unit n hn).space.lap (sinI hn) = 0 := by
  funext i
  have := (Mesh1.unit n hn).interp_deriv2 (anaSin 1) i.2
  rw [(Mesh1.unit n hn).cell_apply i.2] at this
  exact this

theorem omega_one1 (u v : (Mesh1.unit n hn).Broken) :
    (Mesh1.unit n hn).space.omega (Mesh1.unit n hn).space.one u v = (Mesh1.unit n hn).space.mass u v := by
  rw [Mesh1.space_omega, Mesh1.space_mass]
  refine sum_congr rfl fun i hi => ?_
  refine intervalIntegral.integral_congr fun y _ => ?_
  have : ((Mesh1.unit n hn).cell i (Mesh1.unit n hn).space.one).1 y = 1 := by
    rw [(Mesh1.unit n hn).cell_apply (mem_range.1 hi)]; rfl
  simp only [this, one_mul]

theorem mass_sinI : (Mesh1.unit n hn).space.mass (sinI hn) (sinI hn) ≤ 1 := by
  rw [Mesh1.space_mass]
  refine sum_cells_le hn fun i hi => ?_
  have := cell_int_le hn (anaCont ((Mesh1.unit n hn).cell i (sinI hn))) hi (c := 1) fun y hy => by
    rw [sinI, (Mesh1.unit n hn).interp_cell _ hi]
    have hh := (Mesh1.unit n hn).h_pos hi
    have p0 : 0 ≤ ((Mesh1.unit n hn).x (i + 1) - y) / (Mesh1.unit n hn).h i := div_nonneg (sub_nonneg.2 hy.2) hh.le
    have p1 : 0 ≤ (y - (Mesh1.unit n hn).x i) / (Mesh1.unit n hn).h i := div_nonneg (sub_nonneg.2 hy.1) hh.le
    have ps : ((Mesh1.unit n hn).x (i + 1) - y) / (Mesh1.unit n hn).h i + (y - (Mesh1.unit n hn).x i) / (Mesh1.unit n hn).h i = 1 := by
      rw [← add_div, sub_add_sub_cancel]; exact div_self hh.ne'
    have s : ∀ z, |(anaSin 1).1 z| ≤ 1 := fun z => by
      change |1 * Real.sin _| ≤ 1
      rw [one_mul]; exact Real.abs_sin_le_one _
    refine (abs_add_le _ _).trans ?_
    rw [abs_mul, abs_mul, abs_of_nonneg p0, abs_of_nonneg p1]
    have := mul_le_mul_of_nonneg_left (s ((Mesh1.unit n hn).x i)) p0
    have := mul_le_mul_of_nonneg_left (s ((Mesh1.unit n hn).x (i + 1))) p1
    linarith
  simpa using this

end

end Dxss
