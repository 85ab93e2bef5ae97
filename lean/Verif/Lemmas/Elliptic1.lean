import Verif.Lemmas.GridElliptic
import Verif.Lemmas.ReportDiff

/-! # Control of piecewise smooth functions on an interval by boundary values, jumps of the derivative and second derivatives -/

namespace Dxss
open Finset MeasureTheory

/-- Cauchy–Schwarz on an interval. -/
theorem int_cauchy {f : ℝ → ℝ} (hf : Continuous f) {a b : ℝ} (hab : a ≤ b) :
    (∫ y in a..b, f y) ^ 2 ≤ (b - a) * ∫ y in a..b, f y * f y := by
  rcases hab.eq_or_lt with rfl | hlt
  · simp
  set I := ∫ y in a..b, f y with hI
  have hd : 0 < b - a := sub_pos.2 hlt
  have h0 : 0 ≤ ∫ y in a..b, (f y - I / (b - a)) * (f y - I / (b - a)) :=
    intervalIntegral.integral_nonneg hab fun y _ => mul_self_nonneg _
  have e : ∫ y in a..b, (f y - I / (b - a)) * (f y - I / (b - a)) = (∫ y in a..b, f y * f y) - I ^ 2 / (b - a) := by
    have : ∀ y, (f y - I / (b - a)) * (f y - I / (b - a)) = f y * f y + (-(2 * (I / (b - a))) * f y + (I / (b - a)) ^ 2) := fun y => by ring
    simp only [this]
    rw [intervalIntegral.integral_add (Continuous.intervalIntegrable (by fun_prop : Continuous fun y => f y * f y) _ _) (Continuous.intervalIntegrable (by fun_prop) _ _),
      intervalIntegral.integral_add (Continuous.intervalIntegrable (by fun_prop) _ _) (Continuous.intervalIntegrable (by fun_prop) _ _),
      intervalIntegral.integral_const_mul, intervalIntegral.integral_const, ← hI, smul_eq_mul]
    field_simp; ring
  rw [e, sub_nonneg, div_le_iff₀ hd] at h0
  linarith

/-- A function vanishing at both ends of an interval, and its derivative, are controlled by the second derivative. -/
theorem zero_ends {v : Ana} {a b : ℝ} (hab : a < b) (ha : v.1 a = 0) (hb : v.1 b = 0) {y : ℝ} (hy : y ∈ Set.Icc a b) :
    deriv v.1 y ^ 2 ≤ (b - a) * ∫ z in a..b, (anaDeriv (anaDeriv v)).1 z * (anaDeriv (anaDeriv v)).1 z ∧
    v.1 y ^ 2 ≤ (b - a) ^ 3 * ∫ z in a..b, (anaDeriv (anaDeriv v)).1 z * (anaDeriv (anaDeriv v)).1 z := by
  set g := (anaDeriv (anaDeriv v)).1 with hg
  have hgc : Continuous g := anaCont _
  set J := ∫ z in a..b, g z * g z with hJ
  have hii : ∀ c d, IntervalIntegrable (fun z => g z * g z) volume c d := fun c d => (hgc.mul hgc).intervalIntegrable _ _
  have hJ0 : 0 ≤ J := intervalIntegral.integral_nonneg hab.le fun z _ => mul_self_nonneg _
  have sub : ∀ {c d}, a ≤ c → c ≤ d → d ≤ b → (d - c) * ∫ z in c..d, g z * g z ≤ (b - a) * J := by
    intro c d h1 h2 h3
    have hle : ∫ z in c..d, g z * g z ≤ J :=
      intervalIntegral.integral_mono_interval h1 h2 h3 (Filter.Eventually.of_forall fun z => mul_self_nonneg _) (hii _ _)
    exact mul_le_mul (by linarith) hle (intervalIntegral.integral_nonneg h2 fun z _ => mul_self_nonneg _) (by linarith)
  obtain ⟨ξ, hξ, hz⟩ := exists_deriv_eq_zero hab (anaCont v).continuousOn (ha.trans hb.symm)
  have main : ∀ y ∈ Set.Icc a b, deriv v.1 y ^ 2 ≤ (b - a) * J := by
    intro y hy
    have ftc : ∀ c d, ∫ z in c..d, g z = deriv v.1 d - deriv v.1 c := fun c d =>
      intervalIntegral.integral_eq_sub_of_hasDerivAt (fun z _ => (anaDiff (anaDeriv v) z).hasDerivAt) (hgc.intervalIntegrable _ _)
    rcases le_total ξ y with h | h
    · have := int_cauchy hgc h
      rw [ftc, hz, sub_zero] at this
      exact this.trans (sub hξ.1.le h hy.2)
    · have := int_cauchy hgc h
      rw [ftc, hz, zero_sub, neg_sq] at this
      exact this.trans (sub hy.1 h hξ.2.le)
  refine ⟨main y hy, ?_⟩
  rcases hy.1.eq_or_lt with rfl | hlt
  · rw [ha]; simp only [ne_eq, OfNat.ofNat_ne_zero, not_false_eq_true, zero_pow]
    have : 0 ≤ b - a := by linarith
    positivity
  · obtain ⟨ζ, hζ, e⟩ := exists_deriv_eq_slope v.1 hlt (anaCont v).continuousOn (anaDiff v).differentiableOn
    have hya : 0 < y - a := sub_pos.2 hlt
    have e' : v.1 y = deriv v.1 ζ * (y - a) := by rw [e, ha]; field_simp; ring
    have h1 := main ζ ⟨hζ.1.le, hζ.2.le.trans hy.2⟩
    rw [e', mul_pow]
    have h2 : (y - a) ^ 2 ≤ (b - a) ^ 2 := pow_le_pow_left₀ hya.le (by linarith [hy.2]) 2
    calc deriv v.1 ζ ^ 2 * (y - a) ^ 2 ≤ ((b - a) * J) * (b - a) ^ 2 := mul_le_mul h1 h2 (sq_nonneg _) (by
          have : 0 ≤ b - a := by linarith
          positivity)
      _ = _ := by ring

namespace Mesh1
variable (m : Mesh1)

/-- The piecewise linear function with the same values at the ends of the cells. -/
noncomputable def lin (u : m.Broken) : m.Broken := fun i =>
  ⟨fun y => (u i).1 (m.x i) + ((u i).1 (m.x (i + 1)) - (u i).1 (m.x i)) / m.h i * (y - m.x i),
    mem_ana (analyticOnNhd_const.add (analyticOnNhd_const.mul (analyticOnNhd_id.sub analyticOnNhd_const)))⟩

theorem lin_ends (u : m.Broken) {i : ℕ} (hi : i < m.n) :
    (m.cell i (m.lin u)).1 (m.x i) = (m.cell i u).1 (m.x i) ∧ (m.cell i (m.lin u)).1 (m.x (i + 1)) = (m.cell i u).1 (m.x (i + 1)) := by
  have hh := (m.h_pos hi).ne'
  rw [m.cell_apply hi, m.cell_apply hi]
  constructor
  · simp [lin]
  · change (u ⟨i, hi⟩).1 (m.x i) + ((u ⟨i, hi⟩).1 (m.x (i + 1)) - (u ⟨i, hi⟩).1 (m.x i)) / m.h i * m.h i = _
    field_simp; ring

theorem lin_mem {u : m.Broken} (hu : m.Conforming u) : m.lin u ∈ m.lagrange 1 := by
  refine m.mem_lagrange.2 ⟨fun i hi => ?_, fun i hi => ?_⟩
  · set A := (u ⟨i, hi⟩).1 (m.x i)
    set s := ((u ⟨i, hi⟩).1 (m.x (i + 1)) - (u ⟨i, hi⟩).1 (m.x i)) / m.h i
    refine ⟨Polynomial.C s * Polynomial.X + Polynomial.C (A - s * m.x i), by compute_degree, fun y => ?_⟩
    rw [m.cell_apply hi]
    change A + s * (y - m.x i) = _
    simp; ring
  · rw [(m.lin_ends u (by omega)).2, (m.lin_ends u hi).1]
    exact hu i hi

/-- Continuous functions on an interval mesh are controlled by their boundary values, the jumps of their derivatives and their second
derivatives on the cells. -/
theorem elliptic_control {u : m.Broken} (hu : m.Conforming u) {hm hM L : ℝ} (h0 : 0 < hm) (hh : ∀ i < m.n, hm ≤ m.h i ∧ m.h i ≤ hM)
    (hL : m.x m.n - m.x 0 = L) :
    m.space.mass u u ≤ 20 * L * hM * m.space.pen u u + 24 * L ^ 3 * m.n / hm * m.space.ghost u u
      + (48 * L ^ 3 * m.n / hm + 2 * hM ^ 2) * m.space.h2 (m.space.lap u) (m.space.lap u) := by
  have hn := m.pos
  have hPsd := m.space_psd (e := 0) fun i _ y _ => by rw [map_zero]; exact le_rfl
  set v := u - m.lin u with hv
  have hlapc : ∀ i < m.n, m.cell i (m.space.lap u) = anaDeriv (anaDeriv (m.cell i u)) := by
    intro i hi
    rw [m.cell_apply hi, m.cell_apply hi]; rfl
  have hlin0 : ∀ i < m.n, anaDeriv (anaDeriv (m.cell i (m.lin u))) = 0 := by
    intro i hi
    refine Subtype.ext (funext fun y => ?_)
    change deriv (deriv (m.cell i (m.lin u)).1) y = 0
    rw [funext (m.linear_form (m.lin_mem hu) hi).2.1]
    simp
  have hvc : ∀ i, m.cell i v = m.cell i u - m.cell i (m.lin u) := fun i => map_sub _ _ _
  set J : ℕ → ℝ := fun i => ∫ z in (m.x i)..(m.x (i + 1)), (m.cell i (m.space.lap u)).1 z * (m.cell i (m.space.lap u)).1 z with hJ
  have hJ0 : ∀ i < m.n, 0 ≤ J i := fun i hi => intervalIntegral.integral_nonneg (m.lt i hi).le fun z _ => mul_self_nonneg _
  have hz : ∀ i < m.n, ∀ y ∈ Set.Icc (m.x i) (m.x (i + 1)), deriv (m.cell i v).1 y ^ 2 ≤ m.h i * J i ∧ (m.cell i v).1 y ^ 2 ≤ m.h i ^ 3 * J i := by
    intro i hi y hy
    have e := m.lin_ends u hi
    have k := zero_ends (v := m.cell i v) (m.lt i hi)
      (by rw [hvc]; change (m.cell i u).1 _ - (m.cell i (m.lin u)).1 _ = 0; rw [e.1, sub_self])
      (by rw [hvc]; change (m.cell i u).1 _ - (m.cell i (m.lin u)).1 _ = 0; rw [e.2, sub_self]) hy
    have e2 : anaDeriv (anaDeriv (m.cell i v)) = m.cell i (m.space.lap u) := by
      rw [hvc, map_sub, map_sub, hlin0 i hi, sub_zero, hlapc i hi]
    rw [e2] at k
    exact k
  have hh2 : m.space.h2 (m.space.lap u) (m.space.lap u) = ∑ i ∈ range m.n, m.h i ^ 2 * J i := space_h2 _ _ _
  set Q := m.space.h2 (m.space.lap u) (m.space.lap u) with hQ
  -- the remainder
  have hmv : m.space.mass v v ≤ hM ^ 2 * Q := by
    rw [space_mass, hh2, mul_sum]
    refine sum_le_sum fun i hi => ?_
    have hi := mem_range.1 hi
    have hp := m.h_pos hi
    have h1 : ∫ y in (m.x i)..(m.x (i + 1)), (m.cell i v).1 y * (m.cell i v).1 y ≤ ∫ y in (m.x i)..(m.x (i + 1)), m.h i ^ 3 * J i :=
      intervalIntegral.integral_mono_on (m.lt i hi).le (((anaCont _).mul (anaCont _)).intervalIntegrable _ _)
        (continuous_const.intervalIntegrable _ _) fun y hy => by rw [← sq]; exact (hz i hi y hy).2
    refine h1.trans ?_
    rw [intervalIntegral.integral_const, smul_eq_mul]
    have hle : m.h i ^ 2 ≤ hM ^ 2 := pow_le_pow_left₀ hp.le (hh i hi).2 2
    calc (m.x (i + 1) - m.x i) * (m.h i ^ 3 * J i) = m.h i ^ 2 * (m.h i ^ 2 * J i) := by unfold h; ring
      _ ≤ hM ^ 2 * (m.h i ^ 2 * J i) := mul_le_mul_of_nonneg_right hle (mul_nonneg (sq_nonneg _) (hJ0 i hi))
  -- the piecewise linear part
  have hb : (m.cell 0 (m.lin u)).1 (m.x 0) ^ 2 + (m.cell (m.n - 1) (m.lin u)).1 (m.x m.n) ^ 2 ≤ hM * m.space.pen u u := by
    have e1 := (m.lin_ends u hn).1
    have e2 := (m.lin_ends u (show m.n - 1 < m.n by omega)).2
    rw [Nat.sub_add_cancel hn] at e2
    rw [e1, e2, space_pen]
    have p0 := m.h_pos hn; have p1 := m.h_pos (show m.n - 1 < m.n by omega)
    have q0 := (hh 0 hn).2; have q1 := (hh (m.n - 1) (by omega)).2
    have k : ∀ {w x : ℝ}, 0 < w → w ≤ hM → x ^ 2 ≤ hM * (1 / w * (x * x)) := by
      intro w x hw hle
      have : hM * (1 / w * (x * x)) = hM / w * x ^ 2 := by ring
      rw [this]
      exact le_mul_of_one_le_left (sq_nonneg _) ((one_le_div hw).2 hle)
    rw [mul_add]
    exact add_le_add (k p0 q0) (k p1 q1)
  have hg : ∑ l ∈ range (m.n - 1), m.jumpGrad l (m.lin u) ^ 2 ≤ 3 * (m.space.ghost u u / hm) + 6 * (Q / hm) := by
    have h1 : ∀ l ∈ range (m.n - 1), m.jumpGrad l (m.lin u) ^ 2 ≤ 3 * m.jumpGrad l u ^ 2 + 3 * (m.h l * J l) + 3 * (m.h (l + 1) * J (l + 1)) := by
      intro l hl
      have hl := mem_range.1 hl
      have e : m.jumpGrad l (m.lin u) = m.jumpGrad l u - deriv (m.cell l v).1 (m.x (l + 1)) + deriv (m.cell (l + 1) v).1 (m.x (l + 1)) := by
        have : m.jumpGrad l (m.lin u) = m.jumpGrad l u - m.jumpGrad l v := by
          rw [← map_sub, hv, sub_sub_cancel]
        rw [this, jumpGrad_apply _ _ v]; ring
      have k1 := (hz l (by omega) (m.x (l + 1)) ⟨(m.lt l (by omega)).le, le_rfl⟩).1
      have k2 := (hz (l + 1) (by omega) (m.x (l + 1)) ⟨le_rfl, (m.lt (l + 1) (by omega)).le⟩).1
      rw [e]
      set A := m.jumpGrad l u
      set X := deriv (m.cell l v).1 (m.x (l + 1))
      set Y := deriv (m.cell (l + 1) v).1 (m.x (l + 1))
      nlinarith [sq_nonneg (A + X), sq_nonneg (A - Y), sq_nonneg (X + Y)]
    have hterm : ∀ i < m.n, 0 ≤ m.h i * J i := fun i hi => mul_nonneg (m.h_pos hi).le (hJ0 i hi)
    have hs : ∑ i ∈ range m.n, m.h i * J i ≤ Q / hm := by
      rw [hh2, le_div_iff₀ h0, sum_mul]
      refine sum_le_sum fun i hi => ?_
      have hi := mem_range.1 hi
      have := mul_le_mul_of_nonneg_left (hh i hi).1 (hterm i hi)
      calc _ ≤ _ := this
        _ = _ := by ring
    have s1 : ∑ l ∈ range (m.n - 1), m.h l * J l ≤ ∑ i ∈ range m.n, m.h i * J i :=
      sum_le_sum_of_subset_of_nonneg (fun i hi => by have := mem_range.1 hi; exact mem_range.2 (by omega)) fun i hi _ => hterm i (mem_range.1 hi)
    have s2 : ∑ l ∈ range (m.n - 1), m.h (l + 1) * J (l + 1) ≤ ∑ i ∈ range m.n, m.h i * J i := by
      obtain ⟨k, hk⟩ : ∃ k, m.n = k + 1 := ⟨m.n - 1, by omega⟩
      rw [hk, Nat.add_sub_cancel, sum_range_succ' (fun i => m.h i * J i)]
      have := hterm 0 hn
      linarith
    have s3 : ∑ l ∈ range (m.n - 1), m.jumpGrad l u ^ 2 ≤ m.space.ghost u u / hm := by
      rw [le_div_iff₀ h0, sum_mul, space_ghost]
      refine sum_le_sum fun l hl => ?_
      have hl := mem_range.1 hl
      have k1 := (hh l (by omega)).1; have k2 := (hh (l + 1) (by omega)).1
      rw [mul_comm, sq]
      exact mul_le_mul_of_nonneg_right (by linarith) (mul_self_nonneg _)
    refine (sum_le_sum h1).trans ?_
    rw [sum_add_distrib, sum_add_distrib, ← mul_sum, ← mul_sum, ← mul_sum]
    linarith
  have hl := m.linear_control_sq (m.lin_mem hu) hL hb hg
  have hsplit : m.space.mass u u ≤ 2 * m.space.mass (m.lin u) (m.lin u) + 2 * m.space.mass v v := by
    have e : u = m.lin u + v := by rw [hv]; abel
    have h1 := hPsd.mass (m.lin u - v)
    have h2 : m.space.mass u u + m.space.mass (m.lin u - v) (m.lin u - v) = 2 * m.space.mass (m.lin u) (m.lin u) + 2 * m.space.mass v v := by
      have : m.space.mass u u = m.space.mass (m.lin u + v) (m.lin u + v) := by rw [← e]
      rw [this]
      generalize m.lin u = w
      simp only [map_add, map_sub, LinearMap.add_apply, LinearMap.sub_apply]
      ring
    linarith
  calc _ ≤ _ := hsplit
    _ ≤ 2 * (L * (10 * (hM * m.space.pen u u) + 4 * (L ^ 2 * (m.n * (3 * (m.space.ghost u u / hm) + 6 * (Q / hm)))))) + 2 * (hM ^ 2 * Q) := by linarith
    _ = _ := by field_simp; ring

end Mesh1
end Dxss
