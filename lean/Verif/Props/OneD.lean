import Verif.Lemmas.Interval
import Verif.Lemmas.ReportDiff

/-!
# Properties C92, C93: one space dimension, linear elements

C92: the penalties on boundary values and on gradient jumps alone determine linear finite element functions, so the matrix is
invertible on every mesh and for every data domain.  C93: what solve_1d.py computes and reports.
-/

namespace Dxss
open Finset

/-! ## C92 -/

section
variable {m : Mesh1} {C : Cfg m.Broken}

/-- The indicator function has no negative values. -/
def Mesh1.Nonneg (m : Mesh1) (e : m.Broken) : Prop := ∀ i < m.n, ∀ y ∈ Set.Icc (m.x i) (m.x (i + 1)), 0 ≤ (m.cell i e).1 y

/-- C92: with linear elements the two penalties of the primal stabilisation determine the functions. -/
theorem C92_determined (hS : C.S = m.space) (hind : m.Nonneg C.D.ind) (hp : C.D.Positive) (hlam : 0 < C.D.lam)
    (hfe : C.fe.primal ≤ m.lagrange 1) {hm hM L : ℝ} (h0 : 0 < hm) (hh : ∀ i < m.n, hm ≤ m.h i ∧ m.h i ≤ hM)
    (hL : m.x m.n - m.x 0 = L) :
    C.Determined (L * (10 * (hM / C.D.lam) + 4 * (L ^ 2 * (m.n / hm))) / C.D.gPrimal) := by
  intro u hu
  have hPsd := m.space_psd hind
  have hg := hp.primal
  have h1 := m.linear_control (hfe hu) h0 hh hL
  have hL0 : 0 < L := by
    have hsum : ∑ i ∈ range m.n, m.h i = L := by rw [← hL]; exact sum_range_sub m.x m.n
    exact hsum ▸ sum_pos (fun i hi => m.h_pos (mem_range.1 hi)) ⟨0, mem_range.2 m.pos⟩
  have hM0 : 0 < hM := h0.trans_le ((hh 0 m.pos).1.trans (hh 0 m.pos).2)
  rw [hS]
  have p := hPsd.pen u; have g := hPsd.ghost u; have o := hPsd.omega u
  have hd := hp.data
  set P := m.space.pen u u
  set G := m.space.ghost u u
  refine h1.trans ?_
  have e : L * (10 * (hM / C.D.lam) + 4 * (L ^ 2 * (m.n / hm))) / C.D.gPrimal
      * (C.D.gData * m.space.omega C.D.ind u u + C.D.gPrimal * (C.D.lam * P + G))
      = L * (10 * (hM * P) + 4 * (L ^ 2 * (m.n * (G / hm))))
        + L * (10 * (hM / C.D.lam) + 4 * (L ^ 2 * (m.n / hm))) / C.D.gPrimal * (C.D.gData * m.space.omega C.D.ind u u)
        + L * (10 * (hM / C.D.lam) * G + 4 * (L ^ 2 * (m.n / hm)) * (C.D.lam * P)) := by
    field_simp; ring
  rw [e]
  have k1 : 0 ≤ L * (10 * (hM / C.D.lam) + 4 * (L ^ 2 * (m.n / hm))) / C.D.gPrimal * (C.D.gData * m.space.omega C.D.ind u u) := by
    positivity
  have k2 : 0 ≤ L * (10 * (hM / C.D.lam) * G + 4 * (L ^ 2 * (m.n / hm)) * (C.D.lam * P)) := by positivity
  linarith

/-- C92: on every mesh of an interval, with linear elements, for every data domain (also with no data at all), the
space-time matrix has exactly one solution for every right-hand side, provided the placeholder `1e-20` is small
compared with the weights and the mesh. -/
theorem C92_unique_solution (hC : C.Ok) (hS : C.S = m.space) (hind : m.Nonneg C.D.ind) (hp : C.D.Positive) (hlam : 0 < C.D.lam)
    (hN : 0 < C.D.N) (hfe : C.fe.primal ≤ m.lagrange 1) (hi : C.fe.Indep) {hm hM L : ℝ} (h0 : 0 < hm)
    (hh : ∀ i < m.n, hm ≤ m.h i ∧ m.h i ≤ hM) (hL : m.x m.n - m.x 0 = L)
    (hK : L * (10 * (hM / C.D.lam) + 4 * (L ^ 2 * (m.n / hm))) / C.D.gPrimal * ((C.D.q + 1) ^ 2 / C.D.dt)
      * ((1e-20) ^ 2 * (C.D.qstar + 1) ^ 2) < C.D.gDual * C.D.dt) {w₀ : World m.Broken} (h₀ : w₀.Fresh)
    (ops : List (Op m.Broken)) (hops : ∀ op ∈ ops, ¬ op.OtherFlag false) {A : Mat} {w₁ : World m.Broken}
    (h : getSpacetimeMatrix C false (runOps C ops w₀) = (.ok A, w₁)) :
    A.size = C.full.size ∧ A.UniquelySolvable := by
  have hPsd : C.S.Psd C.D.ind := hS ▸ m.space_psd hind
  have hdet := C92_determined hS hind hp hlam hfe h0 hh hL
  have hM0 : 0 < hM := h0.trans_le ((hh 0 m.pos).1.trans (hh 0 m.pos).2)
  have hL0 : 0 ≤ L := by
    have hsum : ∑ i ∈ range m.n, m.h i = L := by rw [← hL]; exact sum_range_sub m.x m.n
    exact hsum ▸ sum_nonneg (fun i hi => (m.h_pos (mem_range.1 hi)).le)
  have hg := hp.primal
  exact C68_observable_unique_solution hC hPsd (hS ▸ m.space_definite) hp hi
    (C68_full_data_observe hC hPsd (hS ▸ m.space_definite) hp (by positivity) hdet hN) hK h₀ ops hops h

end

theorem unit_h {n : ℕ} (hn : 0 < n) (i : ℕ) : (Mesh1.unit n hn).h i = 1 / n := by
  have : (n : ℝ) ≠ 0 := by exact_mod_cast hn.ne'
  simp only [Mesh1.h, Mesh1.unit]; push_cast; field_simp; ring

theorem unit_length {n : ℕ} (hn : 0 < n) : (Mesh1.unit n hn).x (Mesh1.unit n hn).n - (Mesh1.unit n hn).x 0 = 1 := by
  have : (n : ℝ) ≠ 0 := by exact_mod_cast hn.ne'
  simp [Mesh1.unit, this]

section
variable {n : ℕ} {hn : 0 < n} {N : ℤ} {interp : (Mesh1.unit n hn).Broken →ₗ[ℝ] (Mesh1.unit n hn).Broken}
  {om om' : DataDomain (Mesh1.unit n hn).Broken} {sol dsol : ℝ → (Mesh1.unit n hn).Broken} {B : Built (Mesh1.unit n hn).Broken}
  {C : Cfg (Mesh1.unit n hn).Broken}

/-- The data of solve_1d.py with `N` slabs. -/
structure OneDData (C : Cfg (Mesh1.unit n hn).Broken) (N : ℤ) : Prop where
  pos : C.D.Positive
  lam : C.D.lam = 5
  dt : C.D.dt = 1 / N
  N : C.D.N = N.toNat
  q : C.D.q = 1
  qstar : C.D.qstar = 1
  primal : C.D.gPrimal = 1e-3
  dual : C.D.gDual = 1
  wp : C.D.wellPosed = false
  fw : C.D.jumpsFw = false

theorem oneD_data (hb : construct interp { Script.d1.args sol dsol with N := N } om = (.ok B, om')) (hN : 0 < N)
    (hB : C.OfBuilt B) : OneDData C N := by
  obtain ⟨b, -, e⟩ := construct_facts hb
  have hD := hB.D
  rw [e] at hD
  have hNR : (0:ℝ) < N := by exact_mod_cast hN
  have hdt : C.D.dt = 1 / N := by rw [hD]; simp [builtOf, Script.args, Script.T]
  have hlam : C.D.lam = 5 := by rw [hD]; norm_num [builtOf, Script.args, Script.ospace, Script.order]
  have hq : C.D.q = 1 := by rw [hD]; rfl
  have hqs : C.D.qstar = 1 := by rw [hD]; rfl
  have hd : C.D.gData = 1e4 := by rw [hD]; rfl
  have hdu : C.D.gDual = 1 := by rw [hD]; rfl
  have hpr : C.D.gPrimal = 1e-3 := by rw [hD]; rfl
  have hju : C.D.gJump = 1 := by rw [hD]; rfl
  refine ⟨⟨?_, ?_, ?_, ?_, ?_, ?_, ?_⟩, hlam, hdt, by rw [hD]; rfl, hq, hqs, hpr, hdu, by rw [hD]; rfl, by rw [hD]; rfl⟩
  · rw [hdt]; positivity
  · rw [hlam]; norm_num
  · rw [hd]; norm_num
  · rw [hdu]; norm_num
  · rw [hpr]; norm_num
  · rw [hju]; norm_num
  · rw [hdu, hju, hqs]; norm_num

/-- The constant of C92 for these data. -/
theorem oneD_determined (hD : OneDData C N) (hS : C.S = (Mesh1.unit n hn).space) (hind : (Mesh1.unit n hn).Nonneg C.D.ind)
    (hfe : C.fe.primal ≤ (Mesh1.unit n hn).lagrange 1) : C.Determined (1e4 * n ^ 2) := by
  have hn1 : (1:ℝ) ≤ n := by exact_mod_cast hn
  have h := C92_determined hS hind hD.pos (by rw [hD.lam]; norm_num) hfe (hm := 1 / n) (hM := 1 / n) (L := 1) (by positivity)
    (fun i _ => by rw [unit_h hn]; exact ⟨le_rfl, le_rfl⟩) (unit_length hn)
  intro u hu
  refine (h u hu).trans (mul_le_mul_of_nonneg_right ?_ ?_)
  · rw [hD.lam, hD.primal]
    change 1 * (10 * (1 / (n:ℝ) / 5) + 4 * (1 ^ 2 * ((n:ℝ) / (1 / n)))) / 1e-3 ≤ 1e4 * n ^ 2
    have h1 : 1 / (n:ℝ) ≤ n ^ 2 := by
      rw [div_le_iff₀ (by positivity)]
      nlinarith [pow_le_pow_left₀ zero_le_one hn1 3]
    have h2 : (n:ℝ) / (1 / n) = n ^ 2 := by field_simp
    rw [h2]
    rw [one_div] at h1
    have h3 : (0:ℝ) ≤ n ^ 2 := by positivity
    norm_num
    linarith
  · have hPsd := (Mesh1.unit n hn).space_psd hind
    rw [hS]
    have p := hPsd.pen u; have g := hPsd.ghost u; have o := hPsd.omega u
    have := hD.pos.data; have := hD.pos.primal; have := hD.pos.lam
    positivity

/-- C92 for solve_1d.py with any number of cells and slabs, and any data domain. -/
theorem C92_solve_1d (hb : construct interp { Script.d1.args sol dsol with N := N } om = (.ok B, om')) (hN : 0 < N)
    (hsize : (n : ℝ) * N ≤ 1e16) (hC : C.Ok) (hB : C.OfBuilt B) (hS : C.S = (Mesh1.unit n hn).space)
    (hind : (Mesh1.unit n hn).Nonneg C.D.ind) (hfe : C.fe.primal ≤ (Mesh1.unit n hn).lagrange 1) (hi : C.fe.Indep)
    {w₀ : World (Mesh1.unit n hn).Broken} (h₀ : w₀.Fresh) (ops : List (Op (Mesh1.unit n hn).Broken))
    (hops : ∀ op ∈ ops, ¬ op.OtherFlag false) {A : Mat} {w₁ : World (Mesh1.unit n hn).Broken}
    (h : getSpacetimeMatrix C false (runOps C ops w₀) = (.ok A, w₁)) :
    A.size = C.full.size ∧ A.UniquelySolvable := by
  have hD := oneD_data hb hN hB
  have hPsd : C.S.Psd C.D.ind := hS ▸ (Mesh1.unit n hn).space_psd hind
  have hN0 : 0 < C.D.N := by rw [hD.N]; omega
  have hNR : (0:ℝ) < N := by exact_mod_cast hN
  have hdef : C.S.Definite := hS ▸ (Mesh1.unit n hn).space_definite
  refine C68_observable_unique_solution hC hPsd hdef hD.pos hi
    (C68_full_data_observe hC hPsd hdef hD.pos (by positivity) (oneD_determined hD hS hind hfe) hN0) ?_ h₀ ops hops h
  rw [hD.q, hD.qstar, hD.dual, hD.dt]
  have h1 : ((n:ℝ) * N) ^ 2 ≤ (1e16) ^ 2 := pow_le_pow_left₀ (by positivity) hsize 2
  rw [one_mul, lt_div_iff₀ hNR]
  have e : 1e4 * (n:ℝ) ^ 2 * (((1:ℕ) + 1) ^ 2 / (1 / (N:ℝ))) * ((1e-20) ^ 2 * (((1:ℕ):ℝ) + 1) ^ 2) * N = 1.6e-35 * (n * N) ^ 2 := by
    field_simp; norm_num
  rw [e]
  norm_num at h1 ⊢
  linarith
end

/-! ## C93 -/

/-- C93: the solution on the mesh and its derivative are those of the script (C67). -/
theorem C93_sample (m : Mesh1) {i : ℕ} (hi : i < m.n) (t y : ℝ) :
    (m.cell i (m.sol1 t)).1 y = Script.d1.sampleSol t (fun _ => y) ∧
      (m.cell i (m.dsol1 t)).1 y = Script.d1.dtSampleSol t (fun _ => y) := by
  rw [m.cell_apply hi, m.cell_apply hi]
  exact ⟨rfl, rfl⟩

section
variable {V : Type} [AddCommGroup V] [Module ℝ V]

/-- If the right-hand side is only the placeholder, the energy of the solution is of the order of the square of the placeholder. -/
theorem placeholder_energy {C : Cfg V} (hC : C.Ok) (hS : C.S.Psd C.D.ind) (hp : C.D.Positive) {K : ℝ} (ho : C.Observable K)
    (hK : K * ((1e-20) ^ 2 * (C.D.qstar + 1) ^ 2) ≤ 1e-2 * (C.D.gDual * C.D.dt)) (hN : 0 < C.D.N) {x : Vec}
    (he : Spec.energy C.S C.D C.D.ind (C.full.field C.fe x)
      = -(1e-20 * C.S.mass (C.S.one - C.full.field C.fe x 0 0) (C.full.field C.fe x 2 0))) :
    Spec.energy C.S C.D C.D.ind (C.full.field C.fe x)
      ≤ 2 * ((1e-20) ^ 2 * (C.D.qstar + 1) ^ 2 / (C.D.gDual * C.D.dt) * C.S.mass C.S.one C.S.one) := by
  have small := placeholder_small hC hS hp ho hK hN x
  have hb := dual_bottom_energy hC.disc hS hp (ind := C.D.ind) hN (C.full.field C.fe x)
  have hcs := mass_cauchy hS C.S.one (C.full.field C.fe x 2 0)
  have hE0 := C14_energy_nonneg C.S C.D C.D.ind hS hp.weights (C.full.field C.fe x)
  have hone := hS.mass C.S.one
  set U := C.full.field C.fe x
  set E := Spec.energy C.S C.D C.D.ind U
  rw [map_sub, LinearMap.sub_apply] at he
  have hg : 0 < C.D.gDual * C.D.dt := mul_pos hp.dual hp.dt
  have h1 : 0.9 * E ≤ 1e-20 * |C.S.mass C.S.one (U 2 0)| := by
    have := (abs_le.1 small).2
    have := neg_abs_le (C.S.mass C.S.one (U 2 0))
    linarith
  set a := |C.S.mass C.S.one (U 2 0)| with ha
  have ha0 : 0 ≤ a := abs_nonneg _
  have h2 : a ^ 2 * (C.D.gDual * C.D.dt) ≤ C.S.mass C.S.one C.S.one * ((C.D.qstar + 1) ^ 2 * E) := by
    rw [ha, sq_abs]
    calc _ ≤ C.S.mass C.S.one C.S.one * C.S.mass (U 2 0) (U 2 0) * (C.D.gDual * C.D.dt) :=
          mul_le_mul_of_nonneg_right hcs hg.le
      _ = C.S.mass C.S.one C.S.one * (C.D.gDual * C.D.dt * C.S.mass (U 2 0) (U 2 0)) := by ring
      _ ≤ _ := mul_le_mul_of_nonneg_left hb hone
  rcases hE0.eq_or_lt with hE | hE
  · rw [← hE]; positivity
  have h3 : (0.9 * E) ^ 2 ≤ (1e-20 * a) ^ 2 := pow_le_pow_left₀ (by positivity) h1 2
  have h4 : 0.81 * E * E * (C.D.gDual * C.D.dt) ≤ (1e-20) ^ 2 * (C.S.mass C.S.one C.S.one * ((C.D.qstar + 1) ^ 2)) * E := by
    calc 0.81 * E * E * (C.D.gDual * C.D.dt) = (0.9 * E) ^ 2 * (C.D.gDual * C.D.dt) := by ring
      _ ≤ (1e-20 * a) ^ 2 * (C.D.gDual * C.D.dt) := mul_le_mul_of_nonneg_right h3 hg.le
      _ = (1e-20) ^ 2 * (a ^ 2 * (C.D.gDual * C.D.dt)) := by ring
      _ ≤ (1e-20) ^ 2 * (C.S.mass C.S.one C.S.one * ((C.D.qstar + 1) ^ 2 * E)) := mul_le_mul_of_nonneg_left h2 (by positivity)
      _ = _ := by ring
  have h5 : 0.81 * E * (C.D.gDual * C.D.dt) ≤ (1e-20) ^ 2 * (C.S.mass C.S.one C.S.one * ((C.D.qstar + 1) ^ 2)) := by
    refine le_of_mul_le_mul_right ?_ hE
    calc _ = 0.81 * E * E * (C.D.gDual * C.D.dt) := by ring
      _ ≤ _ := h4
  have h6 : 2 * ((1e-20) ^ 2 * (C.D.qstar + 1 : ℝ) ^ 2 / (C.D.gDual * C.D.dt) * C.S.mass C.S.one C.S.one)
      = 2 * ((1e-20) ^ 2 * (C.S.mass C.S.one C.S.one * ((C.D.qstar + 1) ^ 2))) / (C.D.gDual * C.D.dt) := by ring
  rw [h6, le_div_iff₀ hg]
  have : 0 ≤ E * (C.D.gDual * C.D.dt) := by positivity
  linarith

theorem norm_zero_sub (S : Space V) (u : V) : S.norm (0 - u) = S.norm u := by
  rw [zero_sub, Space.norm, Space.norm, map_neg, map_neg, LinearMap.neg_apply, neg_neg]

theorem recon_zero (C : Cfg V) (n : ℕ) (t : ℝ) : C.recon 0 n t = 0 ∧ C.reconDot 0 n t = 0 := by
  have h : ∀ n j, C.node 0 n j = 0 := by intro n j; simp [Cfg.node, Cfg.u1Node, nodeAt, nodeFun]
  constructor <;> simp [Cfg.recon, Cfg.reconDot, h]

end

section
variable {n : ℕ} {hn : 0 < n} {interp : (Mesh1.unit n hn).Broken →ₗ[ℝ] (Mesh1.unit n hn).Broken}
  {ind : (Mesh1.unit n hn).Broken} {om' : DataDomain (Mesh1.unit n hn).Broken} {B : Built (Mesh1.unit n hn).Broken}
  {C : Cfg (Mesh1.unit n hn).Broken}

theorem unit_norm_sol (t : ℝ) : (Mesh1.unit n hn).space.norm (0 - (Mesh1.unit n hn).sol1 t) = √(Real.cos (2 * Real.pi * t) ^ 2 / 2) := by
  rw [Space.norm, zero_sub, map_neg, map_neg, LinearMap.neg_apply, neg_neg, Mesh1.sol1, Mesh1.sin_norm]

theorem unit_norm_dsol (t : ℝ) : (Mesh1.unit n hn).space.norm (0 - (Mesh1.unit n hn).dsol1 t) ^ 2
    = 2 * Real.pi ^ 2 * Real.sin (2 * Real.pi * t) ^ 2 := by
  rw [Space.norm, zero_sub, map_neg, map_neg, LinearMap.neg_apply, neg_neg, Mesh1.dsol1, Mesh1.sin_norm, Real.sq_sqrt (by positivity)]
  ring

theorem unit_norm_dsol' (t : ℝ) : (Mesh1.unit n hn).space.norm (0 - (Mesh1.unit n hn).dsol1 t)
    = √2 * Real.pi * |Real.sin (2 * Real.pi * t)| := by
  have hp := Real.pi_pos
  refine (pow_left_inj₀ (Real.sqrt_nonneg _) (by positivity) two_ne_zero).1 ?_
  have := unit_norm_dsol (n := n) (hn := hn) t
  rw [Space.norm] at this
  rw [this, mul_pow, mul_pow, Real.sq_sqrt (by norm_num), sq_abs]

/-- Sampling `sin²` at 32 equidistant points of a period. -/
theorem sum_sin_sq (p : ℝ) : ∑ n ∈ range 32, Real.sin (2 * Real.pi * ((n + p) * (1 / 32))) ^ 2 = 16 := by
  have hc : ∀ n : ℕ, Real.sin (2 * Real.pi * ((n + p) * (1 / 32))) ^ 2 = 1 / 2 - 1 / 2 * Real.cos (Real.pi / 8 * (n + p)) := by
    intro n
    rw [Real.sin_sq_eq_half_sub]
    have : 2 * (2 * Real.pi * ((n + p) * (1 / 32))) = Real.pi / 8 * (n + p) := by ring
    rw [this]; ring
  have h8 : ∀ n : ℕ, Real.cos (Real.pi / 8 * ((8 + n : ℕ) + p)) = - Real.cos (Real.pi / 8 * (n + p)) := by
    intro n
    rw [← Real.cos_add_pi]; congr 1; push_cast; ring
  have h16 : ∀ n : ℕ, Real.cos (Real.pi / 8 * ((16 + n : ℕ) + p)) = Real.cos (Real.pi / 8 * (n + p)) := by
    intro n
    rw [← Real.cos_add_two_pi (Real.pi / 8 * (n + p))]; congr 1; push_cast; ring
  have s16 : ∑ n ∈ range 16, Real.cos (Real.pi / 8 * (n + p)) = 0 := by
    rw [show 16 = 8 + 8 by rfl, sum_range_add, ← sum_add_distrib]
    exact sum_eq_zero fun n _ => by rw [h8]; ring
  have s32 : ∑ n ∈ range 32, Real.cos (Real.pi / 8 * (n + p)) = 0 := by
    rw [show 32 = 16 + 16 by rfl, sum_range_add, sum_congr (s₂ := range 16) rfl fun n _ => h16 n, s16, add_zero]
  simp only [hc]
  rw [sum_sub_distrib, ← mul_sum, s32]
  norm_num

/-- The errors solve_1d.py reports for the zero vector. -/
noncomputable def zeroReport : ErrDict := ⟨√(1 / 2), √(1 / 2), √2 * Real.pi, Real.pi⟩

theorem report_zero {ot : OrderTime} {os : OrderSpace} (hb : construct interp
      { Script.d1.args (Mesh1.unit n hn).sol1 (Mesh1.unit n hn).dsol1 with otime := ot, ospace := os } (Script.d1.dataDomain ind) = (.ok B, om'))
    (hB : C.OfBuilt B) (hS : C.S = (Mesh1.unit n hn).space) : Report C 0 zeroReport := by
  obtain ⟨b, -, e⟩ := construct_facts hb
  have hD := hB.D
  have hT := hB.T
  have hds := hB.dsol
  have hsa := hB.samples
  have hMe : C.Meas := Meas.of_construct hb (Script.N_pos .d1) (by norm_num [Script.args, Script.T])
    ⟨hB.D, hB.T, hB.dsol, hB.samples, hB.ptsHo, hB.wsHo⟩
  rw [e] at hD hT hds hsa
  have hN : C.D.N = 32 := by rw [hD]; rfl
  have hdt : C.D.dt = 1 / 32 := by rw [hD]; norm_num [builtOf, Script.args, Script.T, Script.N]
  have hsol : C.D.sol = (Mesh1.unit n hn).sol1 := by rw [hD]; rfl
  have hdsol : C.dsol = (Mesh1.unit n hn).dsol1 := by rw [hds]; rfl
  have hT1 : C.T = 1 := by rw [hT]; norm_num [builtOf, Script.args, Script.T]
  have hp := Real.pi_pos
  have cov := fun {t : ℝ} (ht : t ∈ C.samples) => C41_covered hMe ht
  obtain ⟨-, -, m0, -, mi⟩ := C41_samples hMe
  have m26 : (1 / 4 : ℝ) ∈ C.samples := by
    have h := mi 26 (by norm_num)
    have hl := (C41_samples hMe).1
    rw [List.getD_eq_getElem _ _ (by rw [hl]; norm_num), hT1] at h
    rw [show (1 / 4 : ℝ) = (26 : ℕ) / 104 * 1 by norm_num, ← h]
    exact List.getElem_mem _
  refine ⟨?_, ⟨?_, ?_⟩, ⟨?_, ?_⟩, ?_⟩
  · have h0 : C.node 0 (C.D.N - 1) C.D.q = 0 := by simp [Cfg.node, Cfg.u1Node, nodeAt, nodeFun]
    rw [h0, hS, hsol, unit_norm_sol, hT1, zeroReport]
    simp
  · obtain ⟨k, hk, hI⟩ := cov m0
    refine ⟨k, hk, 0, m0, hI, ?_⟩
    rw [(recon_zero C k 0).1, hS, hsol, unit_norm_sol, zeroReport]
    simp
  · rintro _ ⟨k, hk, t, ht, hI, rfl⟩
    rw [(recon_zero C k t).1, hS, hsol, unit_norm_sol, zeroReport]
    refine Real.sqrt_le_sqrt ?_
    have := Real.cos_sq_le_one (2 * Real.pi * t)
    linarith
  · obtain ⟨k, hk, hI⟩ := cov m26
    refine ⟨k, hk, 1 / 4, m26, hI, ?_⟩
    rw [(recon_zero C k _).2, hS, hdsol, zeroReport]
    rw [unit_norm_dsol', show 2 * Real.pi * (1 / 4) = Real.pi / 2 by ring, Real.sin_pi_div_two, abs_one, mul_one]
  · rintro _ ⟨k, hk, t, ht, hI, rfl⟩
    rw [(recon_zero C k t).2, hS, hdsol, zeroReport, unit_norm_dsol']
    exact mul_le_of_le_one_right (by positivity) (Real.abs_sin_le_one _)
  · obtain ⟨hl, -⟩ := hMe.pts
    rcases hpl : C.ptsHo with _ | ⟨p0, _ | ⟨p1, _ | ⟨p2, _ | ⟨p3, _ | ⟨p4, _ | _⟩⟩⟩⟩⟩ <;> rw [hpl] at hl <;> simp at hl
    rw [hMe.ws, hN, hS, hdsol, hdt, zeroReport]
    simp only [(recon_zero C _ _).2, unit_norm_dsol, List.zip_cons_cons, List.zip_nil_right, List.map_cons, List.map_nil, List.sum_cons,
      List.sum_nil, add_zero, sum_add_distrib, ← mul_sum, sum_sin_sq]
    symm
    rw [Real.sqrt_eq_iff_mul_self_eq (by positivity) hp.le]
    norm_num
    ring

/-- The reported errors of solve_1d.py, up to `1e-9`. -/
def NearZeroReport (r : ErrDict) : Prop :=
  |r.l2T - √(1 / 2)| ≤ 1e-9 ∧ |r.linfU - √(1 / 2)| ≤ 1e-9 ∧ |r.linfUt - √2 * Real.pi| ≤ 1e-9 ∧ |r.l2l2Ut - Real.pi| ≤ 1e-9

theorem nearZero_of_solution (hb : construct interp (Script.d1.args (Mesh1.unit n hn).sol1 (Mesh1.unit n hn).dsol1)
      (Script.d1.dataDomain ind) = (.ok B, om')) (hsize : n ≤ 1000) (hC : C.Ok) (hB : C.OfBuilt B)
    (hS : C.S = (Mesh1.unit n hn).space) (hfe : C.fe.primal ≤ (Mesh1.unit n hn).lagrange 1)
    {w₀ : World (Mesh1.unit n hn).Broken} (h₀ : w₀.Fresh) {r : Ref} {w₁ : World (Mesh1.unit n hn).Broken}
    (h : scriptSetup C w₀ = (.ok r, w₁)) {x : Vec} (hx : ∀ d < C.full.size, (stMatOf C false).mult x d = w₁.heap r d)
    {rep : ErrDict} (hr : Report C x rep) : NearZeroReport rep := by
  have hD : OneDData C 32 := oneD_data (N := 32) hb (by norm_num) hB
  have hind : C.D.ind = 0 := by
    obtain ⟨b, -, e⟩ := construct_facts hb
    rw [hB.D, e]
    simp [builtOf, Script.dataDomain, Script.fitted]
  have hnn : (Mesh1.unit n hn).Nonneg C.D.ind := by
    intro i _ y _
    rw [hind, map_zero]; exact le_rfl
  have hPsd : C.S.Psd C.D.ind := hS ▸ (Mesh1.unit n hn).space_psd hnn
  have hdef : C.S.Definite := hS ▸ (Mesh1.unit n hn).space_definite
  have hN0 : 0 < C.D.N := by rw [hD.N]; norm_num
  have hdet := oneD_determined hD hS hnn hfe
  have hn1 : (1:ℝ) ≤ n := by exact_mod_cast hn
  have hn2 : (n:ℝ) ^ 2 ≤ 1e6 := by
    have : (n:ℝ) ≤ 1000 := by exact_mod_cast hsize
    nlinarith
  have hMe : C.Meas := Meas.of_construct hb (Script.N_pos .d1) (by norm_num [Script.args, Script.T])
    ⟨hB.D, hB.T, hB.dsol, hB.samples, hB.ptsHo, hB.wsHo⟩
  have ho := C68_full_data_observe hC hPsd hdef hD.pos (by positivity) hdet hN0
  have hone : C.S.mass C.S.one C.S.one = 1 := by
    rw [hS]
    refine ((Mesh1.unit n hn).mass_fn _ _).trans ?_
    have e := unit_length hn
    simp [e]
  have hE := placeholder_energy hC hPsd hD.pos ho (by
    rw [hD.q, hD.qstar, hD.dual, hD.dt]
    norm_num
    linarith) hN0 (C66_solution_energy hb hC hB h₀ h x hx)
  rw [hone, hD.qstar, hD.dual, hD.dt] at hE
  have hE' : Spec.energy C.S C.D C.D.ind (C.full.field C.fe x - C.full.field C.fe 0) ≤ 2.56e-38 := by
    rw [field_zero, sub_zero]
    refine hE.trans (le_of_eq ?_)
    norm_num
  obtain ⟨d1, d2, d3, d4⟩ := report_diff hC hPsd hD.pos (by positivity) hdet hE' hMe hr (report_zero hb hB hS)
  rw [hD.q, hD.dt] at d1 d2 d3 d4
  have s1 : √(24 * (((1:ℕ):ℝ) + 1) ^ 4 * (1e4 * n ^ 2) / (1 / (32:ℤ)) * 2.56e-38) ≤ 1e-9 := by
    rw [Real.sqrt_le_left (by norm_num)]
    norm_num
    linarith
  have s2 : √(472 * (((1:ℕ):ℝ) + 1) ^ 4 * (1e4 * n ^ 2) / (1 / (32:ℤ)) ^ 3 * 2.56e-38) ≤ 1e-9 := by
    rw [Real.sqrt_le_left (by norm_num)]
    norm_num
    linarith
  have s3 : √(472 * (((1:ℕ):ℝ) + 1) ^ 4 * (1e4 * n ^ 2) / (1 / (32:ℤ)) ^ 2 * 2.56e-38) ≤ 1e-9 := by
    rw [Real.sqrt_le_left (by norm_num)]
    norm_num
    linarith
  exact ⟨d1.trans s1, d2.trans s1, d3.trans s2, d4.trans s3⟩

/-- C93, full statement: the error solve_1d.py reports at the final time for the solution of its linear system is at most half of the
norm of the wave it reconstructs.  False: `Example.C93_violated`. -/
def C93_statement : Prop := ∀ (n : ℕ) (hn : 0 < n) (interp : (Mesh1.unit n hn).Broken →ₗ[ℝ] (Mesh1.unit n hn).Broken)
    (ind : (Mesh1.unit n hn).Broken) (B : Built (Mesh1.unit n hn).Broken) (om' : DataDomain (Mesh1.unit n hn).Broken)
    (C : Cfg (Mesh1.unit n hn).Broken), n = 160 →
    construct interp (Script.d1.args (Mesh1.unit n hn).sol1 (Mesh1.unit n hn).dsol1) (Script.d1.dataDomain ind) = (.ok B, om') →
    C.Ok → C.OfBuilt B → C.S = (Mesh1.unit n hn).space → C.fe = (Mesh1.unit n hn).p1 →
    ∀ (w₀ w₁ z₀ z₁ : World (Mesh1.unit n hn).Broken) (r : Ref) (A : Mat) (ops : List (Op (Mesh1.unit n hn).Broken)) (x : InVec)
      (rep : ErrDict), w₀.Fresh → scriptSetup C w₀ = (.ok r, w₁) → C.Returns false A → z₀.Fresh →
    (∀ d < A.size, A.mult ((runOps C ops z₀).heap x.ref) d = w₁.heap r d) →
    measuredErrors C x.ref (runOps C ops z₀) = (.ok rep, z₁) → rep.l2T ≤ 1 / 2 * C.S.norm (C.D.sol C.T)

/-- C93, what holds: let a vector solve the linear system solve_1d.py sets up.  The errors `measured_errors` reports for it are, up to
`1e-9`, those of the zero function: `√(1/2)`, `√(1/2)`, `√2·π` and `π`, the norms of the exact solution and of its time
derivative. -/
theorem C93_solution_partial (hb : construct interp (Script.d1.args (Mesh1.unit n hn).sol1 (Mesh1.unit n hn).dsol1)
      (Script.d1.dataDomain ind) = (.ok B, om')) (hsize : n ≤ 1000) (hC : C.Ok) (hB : C.OfBuilt B)
    (hS : C.S = (Mesh1.unit n hn).space) (hfe : C.fe.primal ≤ (Mesh1.unit n hn).lagrange 1)
    {w₀ : World (Mesh1.unit n hn).Broken} (h₀ : w₀.Fresh) {r : Ref} {w₁ : World (Mesh1.unit n hn).Broken}
    (h : scriptSetup C w₀ = (.ok r, w₁)) {A : Mat} (hA : C.Returns false A)
    {z₀ : World (Mesh1.unit n hn).Broken} (hz : z₀.Fresh) (ops : List (Op (Mesh1.unit n hn).Broken)) (x : InVec)
    (hx : ∀ d < A.size, A.mult ((runOps C ops z₀).heap x.ref) d = w₁.heap r d)
    {rep : ErrDict} {z₁ : World (Mesh1.unit n hn).Broken} (hrep : measuredErrors C x.ref (runOps C ops z₀) = (.ok rep, z₁)) :
    NearZeroReport rep := by
  have hMe : C.Meas := Meas.of_construct hb (Script.N_pos .d1) (by norm_num [Script.args, Script.T])
    ⟨hB.D, hB.T, hB.dsol, hB.samples, hB.ptsHo, hB.wsHo⟩
  have hPsd := (Mesh1.unit n hn).space_psd (e := 0) fun i _ y _ => by rw [map_zero]; exact le_rfl
  rw [hA.eq] at hx
  exact nearZero_of_solution hb hsize hC hB hS hfe h₀ h hx (C42_any_history hMe (by rw [hS]; exact hPsd.mass) hz ops x hrep)

theorem Report.unique {V : Type} [AddCommGroup V] [Module ℝ V] {C : Cfg V} {x : Vec} {r s : ErrDict} (hr : Report C x r) (hs : Report C x s) :
    r = s := by
  cases r; cases s
  simp only [ErrDict.mk.injEq]
  exact ⟨hr.l2T.trans hs.l2T.symm, hr.linfU.unique hs.linfU, hr.linfUt.unique hs.linfUt, hr.l2l2Ut.trans hs.l2l2Ut.symm⟩

/-- C93 for the whole program, with either back end: if the vector GMRes returns solves the system, the reported errors are
those of the zero function up to `1e-9`; if GMRes stops at its initial guess zero, they are exactly those. -/
theorem C93_run (hb : construct interp (Script.d1.args (Mesh1.unit n hn).sol1 (Mesh1.unit n hn).dsol1)
      (Script.d1.dataDomain ind) = (.ok B, om')) (hsize : n ≤ 1000) (hC : C.Ok) (hB : C.OfBuilt B)
    (hS : C.S = (Mesh1.unit n hn).space) (hfe : C.fe.primal ≤ (Mesh1.unit n hn).lagrange 1)
    {Bk : Backend} {importable : Bool} {fF fS : Vec → Vec} (h1 : Works Bk importable (slabMatOf C false) fF)
    (h2 : Works Bk importable (slabMatOf C true) fS) {K : Krylov} (hK : 0 ≤ K.reason)
    {w : World (Mesh1.unit n hn).Broken} (h₀ : w.Fresh) (hf : w.NoFail) :
    ∃ w₀ w₁ w₂ rep, scriptSetup C w = (.ok .rhs, w₀) ∧
      computeSol C .d1 Bk K (solverType importable) .rhs w₀ = (.ok (.user K.sol), w₁) ∧
      runScript C .d1 Bk K importable w = (.ok (.user K.sol, some rep), w₂) ∧
      (∀ A, C.Returns false A → (∀ d < A.size, A.mult (w₁.heap (.user K.sol)) d = w₀.heap .rhs d) → NearZeroReport rep) ∧
      (w₁.heap (.user K.sol) = 0 → rep = ⟨√(1 / 2), √(1 / 2), √2 * Real.pi, Real.pi⟩) := by
  have hMe : C.Meas := Meas.of_construct hb (Script.N_pos .d1) (by norm_num [Script.args, Script.T])
    ⟨hB.D, hB.T, hB.dsol, hB.samples, hB.ptsHo, hB.wsHo⟩
  have hD : OneDData C 32 := oneD_data (N := 32) hb (by norm_num) hB
  have hPsd := (Mesh1.unit n hn).space_psd (e := 0) fun i _ y _ => by rw [map_zero]; exact le_rfl
  obtain ⟨w₀, w₁, w₂, rep, e0, e1, e2, hr⟩ := C46_completes hC hMe (by rw [hS]; exact hPsd.mass) hD.wp hD.fw h1 h2 hK .d1 h₀ hf
  refine ⟨w₀, w₁, w₂, rep, e0, e1, e2, ?_, fun hz => ?_⟩
  · intro A hA hx
    rw [hA.eq] at hx
    exact nearZero_of_solution hb hsize hC hB hS hfe h₀ e0 hx hr
  · rw [hz] at hr
    exact hr.unique (report_zero hb hB hS)

end

namespace Example
open Mesh1

theorem p1_primal (m : Mesh1) : m.p1.primal ≤ m.lagrange 1 := by
  refine Submodule.span_le.2 ?_
  rintro _ ⟨s, -, rfl⟩
  exact m.hat_mem s

theorem p1_indep (m : Mesh1) : m.p1.Indep := by
  intro c a
  fin_cases c <;> exact fun h => m.hat_indep h

/-- The interval of solve_1d.py. -/
noncomputable abbrev msh : Mesh1 := Mesh1.unit 160 (by norm_num)

/-- solve_1d.py with its own mesh, elements and sample solution. -/
noncomputable def cfg1 (B : Built msh.Broken) : Cfg msh.Broken where
  S := msh.space
  D := B.D
  fe := msh.p1
  full := stdSpace (fullSizes 1 1 32) msh.p1.m
  slab := stdSpace (slabSizes 1 1) msh.p1.m
  coup := stdSpace couplingSizes msh.p1.m
  bnd := stdSpace bndSizes msh.p1.m
  pts := [-1, -0.575319, 0.181066, 0.822824].map fun pt : ℝ => 0.5 * (1 - 0) * pt + 0.5 * (1 + 0)
  ws := [0.125, 0.657689, 0.776387, 0.440924].map fun w : ℝ => 0.5 * 1 * w
  T := B.T
  dsol := B.dsol
  ptsHo := [-1, -0.72048, -0.167181, 0.446314, 0.885792].map fun pt : ℝ => 0.5 * (1 - 0) * pt + 0.5 * (1 + 0)
  wsHo := [0.08, 0.446208, 0.623653, 0.562712, 0.287427].map fun w : ℝ => 0.5 * 1 * w
  samples := B.samples

theorem built1 (ind : msh.Broken) : ∃ B om', construct LinearMap.id (Script.d1.args msh.sol1 msh.dsol1)
    (Script.d1.dataDomain ind) = (.ok B, om') ∧ (cfg1 B).Ok ∧ (cfg1 B).OfBuilt B := by
  obtain ⟨b, -, e⟩ := construct_run (interp := LinearMap.id) (a := Script.d1.args msh.sol1 msh.dsol1)
    (om := Script.d1.dataDomain ind) (by simp [Script.args, Script.N]) (Script.d1.supported _ _)
  have hdt : (builtOf LinearMap.id (Script.d1.args msh.sol1 msh.dsol1) (Script.d1.dataDomain ind) b).D.dt = 1 / 32 := by
    simp [builtOf, Script.args, Script.T, Script.N]
  refine ⟨_, _, e, ?_, ?_⟩
  · refine ⟨⟨getElmatTime_ok ?_ ?_, ?_⟩, stdSpace_ok _ _, rfl, stdSpace_ok _ _, rfl, stdSpace_ok _ _, rfl,
      stdSpace_ok _ _, rfl⟩
    · simp [cfg1, builtOf, Script.args, Script.otime, Script.order]
    · simp [cfg1, builtOf, Script.args, Script.otime, Script.order]
    · change _ ≠ _; rw [cfg1, hdt]; norm_num
  · constructor <;> simp [cfg1, builtOf, QuadRule.currentPts, QuadRule.tWeights, gaussRadau]

theorem meas1 {ind : msh.Broken} {B : Built msh.Broken} {om' : DataDomain msh.Broken}
    (hb : construct LinearMap.id (Script.d1.args msh.sol1 msh.dsol1) (Script.d1.dataDomain ind) = (.ok B, om'))
    (hB : (cfg1 B).OfBuilt B) : (cfg1 B).Meas :=
  Meas.of_construct hb (Script.N_pos .d1) (by norm_num [Script.args, Script.T])
    ⟨hB.D, hB.T, hB.dsol, hB.samples, hB.ptsHo, hB.wsHo⟩

/-- C92 and C93 for solve_1d.py itself: the solution of its system exists and is unique, and the errors reported for it
are those of the zero function. -/
theorem solve1 (ind : msh.Broken) : ∃ B om', construct LinearMap.id (Script.d1.args msh.sol1 msh.dsol1) (Script.d1.dataDomain ind)
      = (.ok B, om') ∧ (cfg1 B).Ok ∧ (cfg1 B).OfBuilt B ∧
    ∀ heap, ∃ w₁ A x ops, scriptSetup (cfg1 B) (freshWorld heap) = (.ok .rhs, w₁) ∧ (cfg1 B).Returns false A ∧
      (∀ d < A.size, A.mult x d = w₁.heap .rhs d) ∧ A.UniquelySolvable ∧ (runOps (cfg1 B) ops (freshWorld heap)).heap (.user 1) = x ∧
      ∃ rep z₁, measuredErrors (cfg1 B) (.user 1) (runOps (cfg1 B) ops (freshWorld heap)) = (.ok rep, z₁) ∧ NearZeroReport rep := by
  obtain ⟨B, om', hb, hC, hB⟩ := built1 ind
  refine ⟨B, om', hb, hC, hB, fun heap => ?_⟩
  obtain ⟨w₁, h, -⟩ := scriptSetup_run (C := cfg1 B) (freshWorld_fresh heap) (freshWorld_noFail _)
  have hA := returns (cfg1 B) false
  obtain ⟨v₀, ops, v₁, g₀, hops, hA'⟩ := hA
  have hind : (cfg1 B).D.ind = 0 := by
    obtain ⟨b, -, e⟩ := construct_facts hb
    rw [hB.D, e]
    simp [builtOf, Script.dataDomain, Script.fitted]
  have hU := (C92_solve_1d (C := cfg1 B) (N := 32) hb (by norm_num) (by norm_num) hC hB rfl
    (fun i _ y _ => by rw [hind, map_zero]; exact le_rfl) (p1_primal _) (p1_indep _) g₀ ops hops hA').2
  obtain ⟨x, hx, -⟩ := hU (w₁.heap .rhs)
  have hz : (runOps (cfg1 B) [.setupFE, .write 1 x] (freshWorld heap)).heap (.user 1) = x :=
    runOps_write (cfg1 B) [.setupFE] 1 x (freshWorld heap)
  have hPsd := msh.space_psd (e := 0) fun i _ y _ => by rw [map_zero]; exact le_rfl
  obtain ⟨rep, z₁, hr⟩ := C42_returns (meas1 hb hB) hPsd.mass (freshWorld_fresh heap) (freshWorld_noFail heap) [.write 1 x] (.user 1)
  exact ⟨w₁, _, x, _, h, ⟨v₀, ops, v₁, g₀, hops, hA'⟩, hx, hU, hz, rep, z₁, hr,
    C93_solution_partial hb (by norm_num) hC hB rfl (p1_primal _) (freshWorld_fresh heap) h ⟨v₀, ops, v₁, g₀, hops, hA'⟩
      (freshWorld_fresh heap) [.setupFE, .write 1 x] (.user 1) (by rw [← hz] at hx; exact hx) hr⟩

/-- C93 is false. -/
theorem C93_violated : ¬ C93_statement := by
  intro hst
  obtain ⟨B, om', hb, hC, hB, h⟩ := solve1 0
  obtain ⟨w₁, A, x, ops, h1, h2, h3, -, h4, rep, z₁, h5, h6⟩ := h fun _ => 0
  have := hst 160 (by norm_num) LinearMap.id 0 B om' (cfg1 B) rfl hb hC hB rfl rfl _ _ _ _ _ _ ops (.user 1) rep (freshWorld_fresh _)
    h1 h2 (freshWorld_fresh _) (by rw [← h4] at h3; exact h3) h5
  have e : (cfg1 B).S.norm ((cfg1 B).D.sol (cfg1 B).T) = √(1 / 2) := by
    obtain ⟨b, -, e⟩ := construct_facts hb
    have e1 : (cfg1 B).D.sol = msh.sol1 := by rw [hB.D, e]; rfl
    have e2 : (cfg1 B).T = 1 := by rw [hB.T, e]; simp [builtOf, Script.args, Script.T]
    have := unit_norm_sol (n := 160) (hn := by norm_num) 1
    rw [e1, e2]
    refine ((norm_zero_sub _ _).symm.trans this).trans ?_
    simp
  rw [e] at this
  have h7 := (abs_le.1 h6.1).1
  have h8 : (1 / 2 : ℝ) ≤ √(1 / 2) := Real.le_sqrt_of_sq_le (by norm_num)
  norm_num at h7 this h8
  linarith

/-- C93 for the whole program: GMRes stopping at its initial guess. -/
example (ind : msh.Broken) : ∃ B om', construct LinearMap.id (Script.d1.args msh.sol1 msh.dsol1) (Script.d1.dataDomain ind)
      = (.ok B, om') ∧ ∀ heap, ∃ w₂, runScript (cfg1 B) .d1 someBackend ⟨[.write 3 0], 2, 3⟩ false (freshWorld heap)
        = (.ok (.user 3, some ⟨√(1 / 2), √(1 / 2), √2 * Real.pi, Real.pi⟩), w₂) := by
  obtain ⟨B, om', hb, hC, hB⟩ := built1 ind
  refine ⟨B, om', hb, fun heap => ?_⟩
  obtain ⟨w₀, w₁, w₂, rep, h1, h2, h3, -, h4⟩ := C93_run hb (by norm_num) hC hB rfl (p1_primal _) (someBackend_lu _) (someBackend_lu _)
    (K := ⟨[.write 3 0], 2, 3⟩) (by decide) (freshWorld_fresh heap) (freshWorld_noFail heap)
  refine ⟨w₂, ?_⟩
  rw [← h4]
  · exact h3
  · change (do let A ← getSlabMatrix (cfg1 B); let A ← needMat A; setSolverSlab (someBackend.lu A); let A ← getSlabMatrixFirst
               let A ← needMat A; setSolverFirst (someBackend.lu A); gmres (cfg1 B) _ : WM _ Ref) w₀ = _ at h2
    obtain ⟨_, _, -, h2⟩ := M.ok_bind h2
    obtain ⟨_, _, -, h2⟩ := M.ok_bind h2
    obtain ⟨_, _, -, h2⟩ := M.ok_bind h2
    obtain ⟨_, _, -, h2⟩ := M.ok_bind h2
    obtain ⟨_, _, -, h2⟩ := M.ok_bind h2
    obtain ⟨_, v, -, h2⟩ := M.ok_bind h2
    have : w₁ = { v with heap := Function.update v.heap (.user 3) 0 } := (Prod.ext_iff.1 h2).2.symm
    rw [this]
    exact Function.update_self (Ref.user 3) (0 : Vec) v.heap

end Example

end Dxss
