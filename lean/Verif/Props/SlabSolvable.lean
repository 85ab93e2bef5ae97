import Verif.Props.OrderBound
import Verif.Props.OrderReport
import Verif.Props.TwoDExample
import Verif.Props.ThreeD
import Verif.Props.PublicApi
import Verif.Props.PrecondApi

/-!
# Property C118: the slab systems of the preconditioner have exactly one solution, whatever the data
-/

namespace Dxss
open Finset

section
variable {V : Type} [AddCommGroup V] [Module ℝ V] {C : Cfg V}

/-- The matrices the preconditioner works with: of the first slab, of the other slabs, and the whole one-sided matrix. -/
def Cfg.PrecondSolvable (C : Cfg V) : Prop :=
  (∀ A₁ A₂, C.ReturnsSlab A₁ A₂ → A₁.size = C.slab.size ∧ A₂.size = C.slab.size ∧ A₁.UniquelySolvable ∧ A₂.UniquelySolvable) ∧
  ∀ P, C.Returns true P → P.size = C.full.size ∧ P.UniquelySolvable

/-- The conditions of C78 met by one constant for the first slab. -/
theorem precondSolvable_of (hC : C.Ok) (hS : C.S.Psd C.D.ind) (hd : C.S.Definite) (hp : C.D.Positive) (hfw : C.D.jumpsFw = false)
    (hi : C.fe.Indep) (hwp : C.D.wellPosed = false) {K : ℝ} (ho : C.firstSlab.Observable K)
    (hK : K * ((1e-20) ^ 2 * (C.D.qstar + 1) ^ 2) < C.D.gDual * C.D.dt) : C.PrecondSolvable := by
  refine ⟨fun A₁ A₂ h => ?_, fun P h => ?_⟩
  · obtain ⟨e1, e2⟩ := h.eq
    obtain ⟨⟨w, ops, w₁, h₀, h₁⟩, ⟨w', ops', w₁', h₀', h₂⟩⟩ := id h
    obtain ⟨u1, u2⟩ := C78_solvers_exist hC hS hd hp hfw hi hwp ho hK h₀ h₀' ops ops' h₁ h₂
    exact ⟨by rw [e1]; rfl, by rw [e2]; rfl, u1, u2⟩
  · obtain ⟨w, ops, w₁, h₀, hops, h⟩ := h
    exact C78_one_sided_unique_solution hC hS hd hp hfw hi hwp ho hK h₀ ops hops h

theorem firstSlab_positive (hp : C.D.Positive) : C.firstSlab.D.Positive :=
  ⟨hp.dt, hp.lam, hp.data, hp.dual, hp.primal, hp.jump, hp.dominates⟩

/-- C118, without initial values: if a function of the finite element space without boundary values, jumps of the gradient and Laplacian is zero,
the data observe the first slab with some constant, for every data domain; if the placeholder `1e-20` is small against such a constant, the
slab matrices and the matrix of `get_spacetime_matrix(precond=True)` are non-singular. -/
theorem C118_elliptic (hC : C.Ok) (hS : C.S.Psd C.D.ind) (hd : C.S.Definite) (hp : C.D.Positive) (hlam : 0 < C.D.lam) (he : C.Elliptic)
    (hfw : C.D.jumpsFw = false) (hi : C.fe.Indep) (hwp : C.D.wellPosed = false) :
    (∃ K, 0 ≤ K ∧ C.firstSlab.Observable K) ∧
    ∀ K, C.firstSlab.Observable K → K * ((1e-20) ^ 2 * (C.D.qstar + 1) ^ 2) < C.D.gDual * C.D.dt → C.PrecondSolvable :=
  ⟨C106_observable (C := C.firstSlab) hC.firstSlab hS hd (firstSlab_positive hp) hlam he hi one_pos,
    fun _ ho => precondSolvable_of hC hS hd hp hfw hi hwp ho⟩

/-- C118 with the constant of C107. -/
theorem C118_bound (hC : C.Ok) (hS : C.S.Psd C.D.ind) (hd : C.S.Definite) (hp : C.D.Positive) (hlam : 0 < C.D.lam)
    (hfw : C.D.jumpsFw = false) (hi : C.fe.Indep) (hwp : C.D.wellPosed = false) {c H : ℝ} (hc0 : 0 ≤ c) (hH0 : 0 ≤ H)
    (hc : C.EllipticBound c) (hH : ∀ v, C.S.h2 v v ≤ H * C.S.mass v v)
    (hK : orderConst c H C.D.dt C.D.gPrimal * ((C.D.q + 1) ^ 2 / C.D.dt) * ((1e-20) ^ 2 * (C.D.qstar + 1) ^ 2) < C.D.gDual * C.D.dt) :
    C.PrecondSolvable :=
  precondSolvable_of hC hS hd hp hfw hi hwp
    (C107_observable (C := C.firstSlab) hC.firstSlab hS hd (firstSlab_positive hp) hlam one_pos hc0 hH0 hc hH) hK

end

section
variable {n : ℕ} {hn : 0 < n} {N : ℤ} {k : ℕ} {sol dsol : ℝ → (Mesh1.unit n hn).Broken}
  {interp : (Mesh1.unit n hn).Broken →ₗ[ℝ] (Mesh1.unit n hn).Broken} {om om' : DataDomain (Mesh1.unit n hn).Broken}
  {B : Built (Mesh1.unit n hn).Broken} {C : Cfg (Mesh1.unit n hn).Broken}

/-- C118 for solve_1d.py with `ORDER` 1, 2 or 3, any number of cells and slabs up to a bound, and any data domain. -/
theorem C118_solve_1d (hb : construct interp (orderArgs k N sol dsol) om = (.ok B, om')) (hN : 0 < N) (hk : 1 ≤ k)
    (hsize : (n : ℝ) * N ^ 4 ≤ 1e12) (hC : C.Ok) (hB : C.OfBuilt B) (hS : C.S = (Mesh1.unit n hn).space)
    (hind : (Mesh1.unit n hn).Nonneg C.D.ind) (hfe : C.fe.primal ≤ (Mesh1.unit n hn).lagrange k) (hi : C.fe.Indep) : C.PrecondSolvable := by
  have hD := order_data hb hN hk hB
  obtain ⟨h1, h2, h3⟩ := order_bound hD hN hS hfe
  exact C118_bound hC (hS ▸ (Mesh1.unit n hn).space_psd hind) (hS ▸ (Mesh1.unit n hn).space_definite) hD.pos (by linarith [hD.lam]) hD.fw hi
    hD.wp (by positivity) (by positivity) h1 h2 (order_small hC hD hN hn hsize h3)

end

section
variable {m : Tri} {hm hM δ R : ℝ} {N : ℤ} {sol dsol : ℝ → m.Broken} {interp : m.Broken →ₗ[ℝ] m.Broken} {om om' : DataDomain m.Broken}
  {B : Built m.Broken} {C : Cfg m.Broken}

/-- C118 for solve_2d.py on any triangulation, with any data domain; the condition is that of C110 (`C110_mesh_sizes` gives mesh sizes which
meet it). -/
theorem C118_solve_2d (hb : construct interp { Script.d2.args sol dsol with N := N } om = (.ok B, om')) (hN : 0 < N)
    (hC : C.Ok) (hB : C.OfBuilt B) (hS : C.S = m.space) (hind : m.Nonneg C.D.ind) (hfe : C.fe.primal ≤ m.lagrange 3) (hi : C.fe.Indep)
    (hbd : m.Bounds hm hM δ R) (hsize : orderConst (triConst hm hM δ R 45) (hM ^ 2) (1 / N) 1e-3 * N ^ 2 ≤ 3e37) : C.PrecondSolvable := by
  have hD := twoD_data hb hN hB
  have hNR : (0:ℝ) < N := by exact_mod_cast hN
  have hlam : 0 < C.D.lam := by rw [hD.lam]; norm_num
  refine C118_bound hC (hS ▸ m.space_psd hind) (hS ▸ m.space_definite) hD.pos hlam hD.fw hi hD.wp (triConst_nonneg hbd hlam) (sq_nonneg hM)
    (C110_elliptic hS hlam le_rfl hfe hbd) (by rw [hS]; exact fun v => (Tri.h2_le hbd v).2) ?_
  rw [hD.lam, hD.dt, hD.primal, hD.q, hD.qstar, hD.dual, one_mul, lt_div_iff₀ hNR]
  set X := orderConst (triConst hm hM δ R 45) (hM ^ 2) (1 / N) 1e-3
  have e : X * ((((3:ℕ):ℝ) + 1) ^ 2 / (1 / (N:ℝ))) * ((1e-20) ^ 2 * (((3:ℕ):ℝ) + 1) ^ 2) * N = 2.56e-38 * (X * N ^ 2) := by
    norm_num; ring
  rw [e]
  generalize X * (N:ℝ) ^ 2 = Y at *
  norm_num at hsize ⊢
  linarith

end

section
variable {k : ℕ} {hk : 0 < k} {N : ℤ} {sol dsol : ℝ → (Grid.unit 2 k hk).Broken}
  {interp : (Grid.unit 2 k hk).Broken →ₗ[ℝ] (Grid.unit 2 k hk).Broken} {om om' : DataDomain (Grid.unit 2 k hk).Broken}
  {B : Built (Grid.unit 2 k hk).Broken} {C : Cfg (Grid.unit 2 k hk).Broken}

/-- C118 for solve_3d.py with any number of cells and slabs, and any data domain. -/
theorem C118_solve_3d (hb : construct interp { Script.d3.args sol dsol with N := N } om = (.ok B, om')) (hN : 0 < N)
    (hsize : (k : ℝ) * N ≤ 1e16) (hC : C.Ok) (hB : C.OfBuilt B) (hS : C.S = (Grid.unit 2 k hk).space)
    (hind : (Grid.unit 2 k hk).Nonneg C.D.ind) (hfe : C.fe.primal ≤ (Grid.unit 2 k hk).lagrange 1) (hi : C.fe.Indep) : C.PrecondSolvable := by
  have hD := threeD_data hb hN hB
  have hPsd : C.S.Psd C.D.ind := hS ▸ (Grid.unit 2 k hk).space_psd hind
  have hNR : (0:ℝ) < N := by exact_mod_cast hN
  have hdef : C.S.Definite := hS ▸ (Grid.unit 2 k hk).space_definite
  have hdet := threeD_determined hD hS hind hfe
  refine precondSolvable_of hC hPsd hdef hD.pos hD.fw hi hD.wp
    (C68_full_data_observe (C := C.firstSlab) hC.firstSlab hPsd hdef (firstSlab_positive hD.pos) (by positivity)
      hdet one_pos) ?_
  change 1e4 * (k:ℝ) ^ 2 * ((C.D.q + 1) ^ 2 / C.D.dt) * ((1e-20) ^ 2 * (C.D.qstar + 1) ^ 2) < C.D.gDual * C.D.dt
  rw [hD.q, hD.qstar, hD.dual, hD.dt]
  have h1 : ((k:ℝ) * N) ^ 2 ≤ (1e16) ^ 2 := pow_le_pow_left₀ (by positivity) hsize 2
  rw [one_mul, lt_div_iff₀ hNR]
  have e : 1e4 * (k:ℝ) ^ 2 * (((1:ℕ) + 1) ^ 2 / (1 / 2 / (N:ℝ))) * ((1e-20) ^ 2 * (((1:ℕ):ℝ) + 1) ^ 2) * N = 3.2e-35 * (k * N) ^ 2 := by
    field_simp; norm_num
  rw [e]
  norm_num at h1 ⊢
  linarith

end

namespace Example
open Grid Tri

/-- C118 for the configurations of all three scripts: the matrices are returned, and the systems have exactly one solution. -/
example {k : ℕ} (h1 : 1 ≤ k) (h3 : k ≤ 3) (ind : msh.Broken) : ∃ B om', construct LinearMap.id (orderArgs k 32 msh.sol1 msh.dsol1)
      (Script.d1.dataDomain ind) = (.ok B, om') ∧ ∃ A₁ A₂ P, (cfgK k B).ReturnsSlab A₁ A₂ ∧ (cfgK k B).Returns true P ∧
      A₁.UniquelySolvable ∧ A₂.UniquelySolvable ∧ P.UniquelySolvable := by
  obtain ⟨B, om', hb, hC, hB⟩ := builtK h3 ind
  obtain ⟨A₁, A₂, hA⟩ := returnsSlab (cfgK k B)
  obtain ⟨s, p⟩ := C118_solve_1d (C := cfgK k B) (N := 32) hb (by norm_num) h1 (by norm_num) hC hB rfl
    (fun i _ y _ => by rw [cfgK_ind hb hB, map_zero]; exact le_rfl) (msh.pk_primal k).le (msh.pk_indep k)
  exact ⟨B, om', hb, A₁, A₂, _, hA, returns _ true, (s _ _ hA).2.2.1, (s _ _ hA).2.2.2, (p _ (returns _ true)).2⟩

example (ind : square.Broken) : ∃ B om', construct LinearMap.id (Script.d2.args square.sol2 square.dsol2) (Script.d2.dataDomain ind)
      = (.ok B, om') ∧ ∃ A₁ A₂ P, (cfgSq B).ReturnsSlab A₁ A₂ ∧ (cfgSq B).Returns true P ∧
      A₁.UniquelySolvable ∧ A₂.UniquelySolvable ∧ P.UniquelySolvable := by
  obtain ⟨B, om', hb, hC, hB⟩ := builtSq ind
  obtain ⟨A₁, A₂, hA⟩ := returnsSlab (cfgSq B)
  obtain ⟨s, p⟩ := C118_solve_2d (C := cfgSq B) (N := 8) hb (by norm_num) hC hB rfl (nonnegSq hb hB) (square.cg_primal 3 3).le
    (square.cg_indep 3 3) square_bounds ((mul_le_mul_of_nonneg_right square_size (by positivity)).trans (by norm_num))
  exact ⟨B, om', hb, A₁, A₂, _, hA, returns _ true, (s _ _ hA).2.2.1, (s _ _ hA).2.2.2, (p _ (returns _ true)).2⟩

example (ind : box.Broken) : ∃ B om', construct LinearMap.id (Script.d3.args box.sol3 box.dsol3) (Script.d3.dataDomain ind)
      = (.ok B, om') ∧ ∃ A₁ A₂ P, (cfgBox B).ReturnsSlab A₁ A₂ ∧ (cfgBox B).Returns true P ∧
      A₁.UniquelySolvable ∧ A₂.UniquelySolvable ∧ P.UniquelySolvable := by
  obtain ⟨B, om', hb, hC, hB⟩ := builtBox ind
  obtain ⟨A₁, A₂, hA⟩ := returnsSlab (cfgBox B)
  have hind : (cfgBox B).D.ind = 0 := by
    obtain ⟨b, -, e⟩ := construct_facts hb
    rw [hB.D, e]
    simp [builtOf, Script.dataDomain, Script.fitted, Script.fitted3, nxs, refLvl]
  obtain ⟨s, p⟩ := C118_solve_3d (C := cfgBox B) (N := 8) hb (by norm_num) (by norm_num) hC hB rfl
    (fun I y _ => by rw [hind]; exact le_rfl) (q1_primal _) (q1_indep _)
  exact ⟨B, om', hb, A₁, A₂, _, hA, returns _ true, (s _ _ hA).2.2.1, (s _ _ hA).2.2.2, (p _ (returns _ true)).2⟩

/-- `C118_elliptic` for solve_2d.py. -/
example (ind : square.Broken) : ∃ B om', construct LinearMap.id (Script.d2.args square.sol2 square.dsol2) (Script.d2.dataDomain ind)
      = (.ok B, om') ∧ (∃ K, 0 ≤ K ∧ (cfgSq B).firstSlab.Observable K) ∧ ∀ K, (cfgSq B).firstSlab.Observable K →
        K * ((1e-20) ^ 2 * ((cfgSq B).D.qstar + 1) ^ 2) < (cfgSq B).D.gDual * (cfgSq B).D.dt → (cfgSq B).PrecondSolvable := by
  obtain ⟨B, om', hb, hC, hB⟩ := builtSq ind
  have hD : TwoDData (cfgSq B) 8 := twoD_data (N := 8) hb (by norm_num) hB
  have hlam : 0 < (cfgSq B).D.lam := by rw [hD.lam]; norm_num
  have hc := C110_elliptic (C := cfgSq B) rfl hlam le_rfl (square.cg_primal 3 3).le square_bounds
  have hPsd : (cfgSq B).S.Psd (cfgSq B).D.ind := square.space_psd (nonnegSq hb hB)
  refine ⟨B, om', hb, C118_elliptic hC hPsd square.space_definite hD.pos hlam ?_ hD.fw (square.cg_indep 3 3) hD.wp⟩
  intro u hu h1 h2 h3
  have := hc u hu
  rw [h1, h2, h3] at this
  simp only [map_zero, mul_zero, add_zero] at this
  exact square.space_definite.mass u (le_antisymm this (hPsd.mass u))

end Example
end Dxss
