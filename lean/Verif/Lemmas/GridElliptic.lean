import Verif.Lemmas.GridInterp

/-! # Functions without boundary values, jumps of the gradient and elementwise Laplacian -/

namespace Dxss
open Finset MeasureTheory

namespace Mesh1
variable (m : Mesh1)

/-- Green's formula for a function whose derivative does not jump, and a continuous one. -/
theorem green_broken {u y : m.Broken} (hu : ∀ i, i + 1 < m.n → m.jumpGrad i u = 0) (hy : m.Conforming y) :
    m.space.mass (m.space.lap u) y + m.space.stiff u y - m.space.nit u y = 0 := by
  have hn := m.pos
  let c : ℕ → ℝ := fun i => if i < m.n then deriv (m.cell i u).1 (m.x i) * (m.cell i y).1 (m.x i)
    else deriv (m.cell (m.n - 1) u).1 (m.x m.n) * (m.cell (m.n - 1) y).1 (m.x m.n)
  have hc : ∀ i < m.n, c (i + 1) = deriv (m.cell i u).1 (m.x (i + 1)) * (m.cell i y).1 (m.x (i + 1)) := by
    intro i hi
    by_cases h : i + 1 < m.n
    · have hj := hu i h
      rw [jumpGrad_apply, sub_eq_zero] at hj
      simp only [c, if_pos h, hy i h, hj]
    · obtain rfl : i = m.n - 1 := by omega
      simp only [c, Nat.sub_add_cancel hn, lt_irrefl, if_false]
  have hlap : ∀ i < m.n, m.cell i (m.space.lap u) = anaDeriv (anaDeriv (m.cell i u)) := by
    intro i hi
    rw [m.cell_apply hi, m.cell_apply hi]; rfl
  rw [space_mass, space_stiff, space_nit, ← sum_add_distrib]
  have key : ∀ i ∈ range m.n, (∫ z in (m.x i)..(m.x (i + 1)), (m.cell i (m.space.lap u)).1 z * (m.cell i y).1 z)
      + ∫ z in (m.x i)..(m.x (i + 1)), deriv (m.cell i u).1 z * deriv (m.cell i y).1 z = c (i + 1) - c i := by
    intro i hi
    have hi := mem_range.1 hi
    rw [hlap i hi, hc i hi]
    have e : c i = deriv (m.cell i u).1 (m.x i) * (m.cell i y).1 (m.x i) := if_pos hi
    have i1 : IntervalIntegrable (fun z => (anaDeriv (anaDeriv (m.cell i u))).1 z * (m.cell i y).1 z) volume (m.x i) (m.x (i + 1)) :=
      ((anaCont _).mul (anaCont _)).intervalIntegrable _ _
    have i2 : IntervalIntegrable (fun z => deriv (m.cell i u).1 z * deriv (m.cell i y).1 z) volume (m.x i) (m.x (i + 1)) :=
      ((anaCont (anaDeriv (m.cell i u))).mul (anaCont (anaDeriv (m.cell i y)))).intervalIntegrable _ _
    rw [e, ← intervalIntegral.integral_add i1 i2]
    exact intervalIntegral.integral_eq_sub_of_hasDerivAt (a := m.x i) (b := m.x (i + 1))
      (f := fun z => (anaDeriv (m.cell i u)).1 z * (m.cell i y).1 z)
      (f' := fun z => (anaDeriv (anaDeriv (m.cell i u))).1 z * (m.cell i y).1 z + deriv (m.cell i u).1 z * deriv (m.cell i y).1 z)
      (fun z _ => ((anaDiff (anaDeriv (m.cell i u)) z).hasDerivAt.mul (anaDiff (m.cell i y) z).hasDerivAt))
      (i1.add i2)
  rw [sum_congr rfl key, sum_range_sub]
  have e0 : c 0 = deriv (m.cell 0 u).1 (m.x 0) * (m.cell 0 y).1 (m.x 0) := if_pos hn
  have e1 : c m.n = deriv (m.cell (m.n - 1) u).1 (m.x m.n) * (m.cell (m.n - 1) y).1 (m.x m.n) := if_neg (lt_irrefl _)
  rw [e0, e1]
  ring

/-- A continuous function on an interval mesh whose second derivative vanishes on the cells is determined by its boundary values and the
jumps of its derivative. -/
theorem elliptic {u : m.Broken} (hu : m.Conforming u) (hp : m.space.pen u u = 0) (hg : m.space.ghost u u = 0) (hl : m.space.lap u = 0) :
    u = 0 := by
  have hlin : u ∈ m.lagrange 1 := by
    refine m.mem_lagrange.2 ⟨fun i hi => ?_, hu⟩
    have h0 : anaDeriv (anaDeriv (m.cell i u)) = 0 := by
      have := congrFun hl ⟨i, hi⟩
      rw [m.cell_apply hi]; exact this
    have h1 : ∀ x, deriv (m.cell i u).1 x = deriv (m.cell i u).1 0 := fun x =>
      is_const_of_deriv_eq_zero (anaDiff (anaDeriv (m.cell i u))) (fun z => congrFun (congrArg Subtype.val h0) z) x 0
    set c := deriv (m.cell i u).1 0 with hc
    have h2 : ∀ x, (m.cell i u).1 x - c * x = (m.cell i u).1 0 - c * 0 := fun x =>
      is_const_of_deriv_eq_zero (f := fun x => (m.cell i u).1 x - c * x) ((anaDiff _).sub (by fun_prop)) (fun z => by
        rw [deriv_fun_sub (anaDiff _ z) (by fun_prop), h1 z, deriv_const_mul _ (by fun_prop)]; simp) x 0
    refine ⟨Polynomial.C c * Polynomial.X + Polynomial.C ((m.cell i u).1 0), by compute_degree, fun y => ?_⟩
    have := h2 y
    simp; linarith
  obtain ⟨hm, h0, hM, hh⟩ : ∃ hm : ℝ, 0 < hm ∧ ∃ hM, ∀ i < m.n, hm ≤ m.h i ∧ m.h i ≤ hM := by
    have hne : (range m.n).Nonempty := ⟨0, mem_range.2 m.pos⟩
    obtain ⟨a, ha, h1⟩ := exists_min_image (range m.n) m.h hne
    obtain ⟨b, -, h2⟩ := exists_max_image (range m.n) m.h hne
    exact ⟨m.h a, m.h_pos (mem_range.1 ha), m.h b, fun i hi => ⟨h1 i (mem_range.2 hi), h2 i (mem_range.2 hi)⟩⟩
  have := m.linear_control hlin h0 hh rfl
  rw [hp, hg] at this
  refine m.space_definite.mass u (le_antisymm (by simpa using this) ?_)
  rw [space_mass]
  exact sum_nonneg fun i hi => intervalIntegral.integral_nonneg (m.lt i (mem_range.1 hi)).le fun z _ => mul_self_nonneg _

end Mesh1

namespace Grid
variable {n : ℕ} (m : Grid n)

theorem line_jump {a : Fin (n + 1)} (J : m.Line a) (v : m.Broken) (y : Fin n → ℝ) (i : Fin (m.axis a).n)
    (h : (J.cell i a).1 + 1 < (m.axis a).n) :
    (m.axis a).jumpGrad i (J.fn y v) = (m.jump a (J.cell i) h a v).1 (a.insertNth (hi (J.cell i) a) y) := by
  have h' : i.1 + 1 < (m.axis a).n := by rw [J.cell_same] at h; exact h
  rw [Mesh1.jumpGrad_apply, (m.axis a).cell_apply i.2, (m.axis a).cell_apply h', J.hi_same, jump]
  simp only [Line.fn]
  rw [AnaD.line_deriv, AnaD.line_deriv, ← J.next_cell i h]
  rfl

/-- Without the penalty on jumps of the gradient the derivative along a line does not jump. -/
theorem jump_zero {u : m.Broken} (hg : m.space.ghost u u = 0) {a : Fin (n + 1)} (J : m.Line a) (y : Fin n → ℝ)
    {i : ℕ} (hi' : i + 1 < (m.axis a).n) : (m.axis a).jumpGrad i (J.fn y u) = 0 := by
  have h : (J.cell ⟨i, by omega⟩ a).1 + 1 < (m.axis a).n := by rw [J.cell_same]; exact hi'
  have e := m.line_jump J u y ⟨i, by omega⟩ h
  refine e.trans ?_
  set I := J.cell ⟨i, by omega⟩
  rw [space_ghost, sum_eq_zero_iff_of_nonneg fun a _ => sum_nonneg fun I _ => m.ghost_term_nonneg u a I] at hg
  have h1 := hg a (mem_univ a)
  rw [sum_eq_zero_iff_of_nonneg fun I _ => m.ghost_term_nonneg u a I] at h1
  have h2 := h1 I (mem_univ I)
  rw [dif_pos h] at h2
  have hpos : 0 < 1 / 2 * (diam I + diam (next a I h)) := by
    have := m.diam_pos I; have := m.diam_pos (next a I h); positivity
  have h3 := (mul_eq_zero.1 h2).resolve_left hpos.ne'
  rw [sum_eq_zero_iff_of_nonneg fun b _ => m.faceInt_self_nonneg _ _ _ _] at h3
  have h4 := h3 a (mem_univ a)
  have h5 : AnaD.face a (hi I a) (m.jump a I h a u) = 0 :=
    AnaD.eq_zero (lo := a.removeNth (lo I)) (hi := a.removeNth (hi I)) (fun b => m.lo_lt_hi I _) h4
  exact congrFun (congrArg Subtype.val h5) y

/-- Green's formula on a grid, for a function whose gradient does not jump, and a continuous one. -/
theorem green_broken {u v : m.Broken} (hg : m.space.ghost u u = 0) (hv : m.Conforming v) :
    m.space.mass (m.space.lap u) v + m.space.stiff u v - m.space.nit u v = 0 := by
  have e0 : m.space.mass (m.space.lap u) v = ∑ b, m.space.mass (m.dfn b (m.dfn b u)) v := by
    rw [← LinearMap.sum_apply, ← map_sum]
    congr 2
    funext I
    rw [Finset.sum_apply]
    simp only [space, LinearMap.pi_apply, LinearMap.sum_apply]
    rfl
  rw [e0, stiff_eq, space_nit, ← sum_add_distrib, ← sum_sub_distrib]
  refine sum_eq_zero fun b _ => ?_
  rw [sub_eq_zero, m.nit_lines b, m.mass_lines b, m.mass_lines b, ← sum_add_distrib]
  refine sum_congr rfl fun J _ => ?_
  rw [← integral_add (m.box_int J (m.line_mass_continuous J _ _)) (m.box_int J (m.line_mass_continuous J _ _))]
  refine setIntegral_congr_fun (m.box_compact J).isClosed.measurableSet fun y hy => ?_
  simp only [m.line_dfn]
  have e : J.fn y (m.dfn b (m.dfn b u)) = (m.axis b).space.lap (J.fn y u) := by
    have h : ∀ f : AnaD (n + 1), anaDeriv (AnaD.line b y f) = AnaD.line b y (AnaD.pd b f) := fun f =>
      Subtype.ext (funext fun s => AnaD.line_deriv b y f s)
    funext i
    change AnaD.line b y (AnaD.pd b (AnaD.pd b (u (J.cell i)))) = anaDeriv (anaDeriv (AnaD.line b y (u (J.cell i))))
    rw [h, h]
  rw [e]
  exact sub_eq_zero.1 ((m.axis b).green_broken (fun i hi => m.jump_zero hg J y hi) (m.line_conforming hv J hy))

/-- A continuous function on a grid with constant values on the cells and no boundary values is zero. -/
theorem zero_of_stiff {u : m.Broken} (hu : m.Conforming u) (hp : m.space.pen u u = 0) (hs : m.space.stiff u u = 0) : u = 0 := by
  have hm0 : ∀ v : m.Broken, 0 ≤ m.space.mass v v := (m.space_psd (e := 0) fun _ _ _ => le_rfl).mass
  rw [stiff_eq, sum_eq_zero_iff_of_nonneg fun b _ => hm0 _] at hs
  have hd : ∀ b, m.dfn b u = 0 := fun b => m.space_definite.mass _ (hs b (mem_univ b))
  -- the function is multilinear, with no jumps of the gradient
  have hlin : u ∈ m.lagrange 1 := by
    refine m.mem_lagrange.2 ⟨fun I a y => ⟨Polynomial.C ((u I).1 (a.insertNth 0 y)), by simp, fun s => ?_⟩, hu⟩
    rw [Polynomial.eval_C]
    refine is_const_of_deriv_eq_zero (anaDiff (AnaD.line a y (u I))) (fun z => ?_) s 0
    rw [AnaD.line_deriv]
    have : AnaD.pd a (u I) = 0 := congrFun (hd a) I
    rw [this]; rfl
  have hg : m.space.ghost u u = 0 := by
    rw [space_ghost]
    refine sum_eq_zero fun a _ => sum_eq_zero fun I _ => ?_
    split
    · rename_i h
      have hj : ∀ b, m.jump a I h b u = 0 := by
        intro b
        have h1 : AnaD.pd b (u I) = 0 := congrFun (hd b) I
        have h2 : AnaD.pd b (u (next a I h)) = 0 := congrFun (hd b) _
        change AnaD.pd b (u I) - AnaD.pd b (u (next a I h)) = 0
        rw [h1, h2, sub_zero]
      rw [sum_eq_zero fun b _ => ?_, mul_zero]
      rw [hj b]
      simp [faceInt]
    · rfl
  obtain ⟨dm, h0, dM, hdm⟩ : ∃ dm : ℝ, 0 < dm ∧ ∃ dM, ∀ I : m.Cell, dm ≤ diam I ∧ diam I ≤ dM := by
    have hne : (univ : Finset m.Cell).Nonempty := ⟨fun a => ⟨0, (m.axis a).pos⟩, mem_univ _⟩
    obtain ⟨I, -, h1⟩ := exists_min_image univ (fun I : m.Cell => diam I) hne
    obtain ⟨I', -, h2⟩ := exists_max_image univ (fun I : m.Cell => diam I) hne
    exact ⟨diam I, m.diam_pos I, diam I', fun I => ⟨h1 I (mem_univ _), h2 I (mem_univ _)⟩⟩
  have := m.multilinear_control hlin h0 hdm 0 rfl
  rw [hp, hg] at this
  exact m.space_definite.mass u (le_antisymm (by simpa using this) (hm0 u))

theorem nit_zero {u v : m.Broken} (hp : m.space.pen v v = 0) : m.space.nit u v = 0 := by
  have := m.flux_bound u v
  rw [hp, mul_zero] at this
  exact pow_eq_zero_iff (two_ne_zero) |>.1 (le_antisymm this (sq_nonneg _))

end Grid
end Dxss
