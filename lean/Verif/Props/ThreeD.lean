import Verif.Lemmas.Grid
import Verif.Props.OneD

/-!
# Properties C102, C103: grids of boxes, multilinear elements

C102: as C92, on grids of boxes in any number of dimensions.  C103: what solve_3d.py computes and reports.
-/

namespace Dxss
open Finset

/-! ## C102 -/

section
variable {n : ℕ} {m : Grid n} {C : Cfg m.Broken}

/-- C102: with multilinear elements the two penalties of the primal stabilisation determine the functions. -/
theorem C102_determined (hS : C.S = m.space) (hind : m.Nonneg C.D.ind) (hp : C.D.Positive) (hlam : 0 < C.D.lam)
    (hfe : C.fe.primal ≤ m.lagrange 1) {dm dM L : ℝ} (h0 : 0 < dm) (hd : ∀ I : m.Cell, dm ≤ Grid.diam I ∧ Grid.diam I ≤ dM)
    (a : Fin (n + 1)) (hL : (m.axis a).x (m.axis a).n - (m.axis a).x 0 = L) :
    C.Determined (L * (10 * (dM / C.D.lam) + 4 * (L ^ 2 * ((m.axis a).n / dm))) / C.D.gPrimal) := by
  intro u hu
  have hPsd := m.space_psd hind
  have hg := hp.primal
  have h1 := m.multilinear_control (hfe hu) h0 hd a hL
  have hL0 : 0 < L := by
    have hsum : ∑ i ∈ range (m.axis a).n, (m.axis a).h i = L := by rw [← hL]; exact sum_range_sub (m.axis a).x (m.axis a).n
    exact hsum ▸ sum_pos (fun i hi => (m.axis a).h_pos (mem_range.1 hi)) ⟨0, mem_range.2 (m.axis a).pos⟩
  have hM0 : 0 < dM := by
    have := hd fun a => ⟨0, (m.axis a).pos⟩
    exact h0.trans_le (this.1.trans this.2)
  rw [hS]
  have p := hPsd.pen u; have g := hPsd.ghost u; have o := hPsd.omega u
  have hda := hp.data
  set P := m.space.pen u u
  set G := m.space.ghost u u
  refine h1.trans ?_
  generalize (m.axis a).n = k
  have e : L * (10 * (dM / C.D.lam) + 4 * (L ^ 2 * (k / dm))) / C.D.gPrimal
      * (C.D.gData * m.space.omega C.D.ind u u + C.D.gPrimal * (C.D.lam * P + G))
      = L * (10 * (dM * P) + 4 * (L ^ 2 * (k * (G / dm))))
        + L * (10 * (dM / C.D.lam) + 4 * (L ^ 2 * (k / dm))) / C.D.gPrimal * (C.D.gData * m.space.omega C.D.ind u u)
        + L * (10 * (dM / C.D.lam) * G + 4 * (L ^ 2 * (k / dm)) * (C.D.lam * P)) := by
    field_simp; ring
  rw [e]
  have k1 : 0 ≤ L * (10 * (dM / C.D.lam) + 4 * (L ^ 2 * (k / dm))) / C.D.gPrimal * (C.D.gData * m.space.omega C.D.ind u u) := by
    positivity
  have k2 : 0 ≤ L * (10 * (dM / C.D.lam) * G + 4 * (L ^ 2 * (k / dm)) * (C.D.lam * P)) := by positivity
  linarith

/-- C102: on every grid of boxes in any number of dimensions, with multilinear elements, for every data domain (also with no data at
all), the space-time matrix has exactly one solution for every right-hand side, provided the placeholder `1e-20` is small compared
with the weights and the mesh. -/
theorem C102_unique_solution (hC : C.Ok) (hS : C.S = m.space) (hind : m.Nonneg C.D.ind) (hp : C.D.Positive) (hlam : 0 < C.D.lam)
    (hN : 0 < C.D.N) (hfe : C.fe.primal ≤ m.lagrange 1) (hi : C.fe.Indep) {dm dM L : ℝ} (h0 : 0 < dm)
    (hd : ∀ I : m.Cell, dm ≤ Grid.diam I ∧ Grid.diam I ≤ dM)
    (a : Fin (n + 1)) (hL : (m.axis a).x (m.axis a).n - (m.axis a).x 0 = L)
    (hK : L * (10 * (dM / C.D.lam) + 4 * (L ^ 2 * ((m.axis a).n / dm))) / C.D.gPrimal * ((C.D.q + 1) ^ 2 / C.D.dt)
      * ((1e-20) ^ 2 * (C.D.qstar + 1) ^ 2) < C.D.gDual * C.D.dt) {w₀ : World m.Broken} (h₀ : w₀.Fresh)
    (ops : List (Op m.Broken)) (hops : ∀ op ∈ ops, ¬ op.OtherFlag false) {A : Mat} {w₁ : World m.Broken}
    (h : getSpacetimeMatrix C false (runOps C ops w₀) = (.ok A, w₁)) :
    A.size = C.full.size ∧ A.UniquelySolvable := by
  have hPsd : C.S.Psd C.D.ind := hS ▸ m.space_psd hind
  have hdet := C102_determined hS hind hp hlam hfe h0 hd a hL
  have hM0 : 0 < dM := by
    have := hd fun a => ⟨0, (m.axis a).pos⟩
    exact h0.trans_le (this.1.trans this.2)
  have hL0 : 0 ≤ L := by
    have hsum : ∑ i ∈ range (m.axis a).n, (m.axis a).h i = L := by rw [← hL]; exact sum_range_sub (m.axis a).x (m.axis a).n
    exact hsum ▸ sum_nonneg (fun i hi => ((m.axis a).h_pos (mem_range.1 hi)).le)
  have hg := hp.primal
  exact C68_observable_unique_solution hC hPsd (hS ▸ m.space_definite) hp hi
    (C68_full_data_observe hC hPsd (hS ▸ m.space_definite) hp (by positivity) hdet hN) hK h₀ ops hops h

end

section
variable {k : ℕ} {hk : 0 < k} {N : ℤ} {interp : (Grid.unit 2 k hk).Broken →ₗ[ℝ] (Grid.unit 2 k hk).Broken}
  {om om' : DataDomain (Grid.unit 2 k hk).Broken} {sol dsol : ℝ → (Grid.unit 2 k hk).Broken} {B : Built (Grid.unit 2 k hk).Broken}
  {C : Cfg (Grid.unit 2 k hk).Broken}

/-- The data of solve_3d.py with `N` slabs. -/
structure ThreeDData (C : Cfg (Grid.unit 2 k hk).Broken) (N : ℤ) : Prop where
  pos : C.D.Positive
  lam : C.D.lam = 5
  dt : C.D.dt = 1 / 2 / N
  N : C.D.N = N.toNat
  q : C.D.q = 1
  qstar : C.D.qstar = 1
  primal : C.D.gPrimal = 1e-3
  dual : C.D.gDual = 1
  wp : C.D.wellPosed = false
  fw : C.D.jumpsFw = false

theorem threeD_data (hb : construct interp { Script.d3.args sol dsol with N := N } om = (.ok B, om')) (hN : 0 < N)
    (hB : C.OfBuilt B) : ThreeDData C N := by
  obtain ⟨b, -, e⟩ := construct_facts hb
  have hD := hB.D
  rw [e] at hD
  have hNR : (0:ℝ) < N := by exact_mod_cast hN
  have hdt : C.D.dt = 1 / 2 / N := by rw [hD]; simp [builtOf, Script.args, Script.T]
  have hlam : C.D.lam = 5 := by rw [hD]; norm_num [builtOf, Script.args, Script.ospace, Script.order]
  have hq : C.D.q = 1 := by rw [hD]; rfl
  have hqs : C.D.qstar = 1 := by rw [hD]; rfl
  have hd : C.D.gData = 1e4 := by rw [hD]; rfl
  have hdu : C.D.gDual = 1 := by rw [hD]; rfl
  have hpr : C.D.gPrimal = 1e-3 := by rw [hD]; rfl
  have hju : C.D.gJump = 1 := by rw [hD]; rfl
  refine ⟨⟨?_, ?_, ?_, ?_, ?_, ?_, ?_⟩, hlam, hdt, by rw [hD]; rfl, hq, hqs, hpr, hdu, by rw [hD]; rfl, by rw [hD]; rfl⟩
  · rw [hdt]; positivity
  · rw [hlam]; norm_num
  · rw [hd]; norm_num
  · rw [hdu]; norm_num
  · rw [hpr]; norm_num
  · rw [hju]; norm_num
  · rw [hdu, hju, hqs]; norm_num

/-- The constant of C102 for these data. -/
theorem threeD_determined (hD : ThreeDData C N) (hS : C.S = (Grid.unit 2 k hk).space) (hind : (Grid.unit 2 k hk).Nonneg C.D.ind)
    (hfe : C.fe.primal ≤ (Grid.unit 2 k hk).lagrange 1) : C.Determined (1e4 * k ^ 2) := by
  have hk1 : (1:ℝ) ≤ k := by exact_mod_cast hk
  have s1 : (1:ℝ) ≤ √((2:ℕ) + 1) := Real.le_sqrt_of_sq_le (by norm_num)
  have s2 : √((2:ℕ) + 1) ≤ (2:ℝ) := by rw [Real.sqrt_le_left (by norm_num)]; norm_num
  have hlen : ((Grid.unit 2 k hk).axis 0).x ((Grid.unit 2 k hk).axis 0).n - ((Grid.unit 2 k hk).axis 0).x 0 = 1 := by
    rw [(Grid.unit_ends 0).1, (Grid.unit_ends 0).2, sub_zero]
  have h := C102_determined hS hind hD.pos (by rw [hD.lam]; norm_num) hfe (dm := √((2:ℕ) + 1) / k) (dM := √((2:ℕ) + 1) / k) (L := 1)
    (by positivity) (fun I => by rw [Grid.unit_diam]; exact ⟨le_rfl, le_rfl⟩) 0 hlen
  intro u hu
  refine (h u hu).trans (mul_le_mul_of_nonneg_right ?_ ?_)
  · rw [hD.lam, hD.primal]
    change 1 * (10 * (√((2:ℕ) + 1) / (k:ℝ) / 5) + 4 * (1 ^ 2 * ((k:ℝ) / (√((2:ℕ) + 1) / k)))) / 1e-3 ≤ 1e4 * k ^ 2
    set s := √((2:ℕ) + (1:ℝ))
    have h1 : s / (k:ℝ) ≤ 2 * k ^ 2 := by
      rw [div_le_iff₀ (by positivity)]
      nlinarith [pow_le_pow_left₀ zero_le_one hk1 3]
    have h2 : (k:ℝ) / (s / k) ≤ k ^ 2 := by
      rw [div_div_eq_mul_div, ← pow_two]
      exact div_le_self (by positivity) s1
    have h3 : (0:ℝ) ≤ k ^ 2 := by positivity
    norm_num
    linarith
  · have hPsd := (Grid.unit 2 k hk).space_psd hind
    rw [hS]
    have p := hPsd.pen u; have g := hPsd.ghost u; have o := hPsd.omega u
    have := hD.pos.data; have := hD.pos.primal; have := hD.pos.lam
    positivity

/-- C102 for solve_3d.py with any number of cells and slabs, and any data domain. -/
theorem C102_solve_3d (hb : construct interp { Script.d3.args sol dsol with N := N } om = (.ok B, om')) (hN : 0 < N)
    (hsize : (k : ℝ) * N ≤ 1e16) (hC : C.Ok) (hB : C.OfBuilt B) (hS : C.S = (Grid.unit 2 k hk).space)
    (hind : (Grid.unit 2 k hk).Nonneg C.D.ind) (hfe : C.fe.primal ≤ (Grid.unit 2 k hk).lagrange 1) (hi : C.fe.Indep)
    {w₀ : World (Grid.unit 2 k hk).Broken} (h₀ : w₀.Fresh) (ops : List (Op (Grid.unit 2 k hk).Broken))
    (hops : ∀ op ∈ ops, ¬ op.OtherFlag false) {A : Mat} {w₁ : World (Grid.unit 2 k hk).Broken}
    (h : getSpacetimeMatrix C false (runOps C ops w₀) = (.ok A, w₁)) :
    A.size = C.full.size ∧ A.UniquelySolvable := by
  have hD := threeD_data hb hN hB
  have hPsd : C.S.Psd C.D.ind := hS ▸ (Grid.unit 2 k hk).space_psd hind
  have hN0 : 0 < C.D.N := by rw [hD.N]; omega
  have hNR : (0:ℝ) < N := by exact_mod_cast hN
  have hdef : C.S.Definite := hS ▸ (Grid.unit 2 k hk).space_definite
  refine C68_observable_unique_solution hC hPsd hdef hD.pos hi
    (C68_full_data_observe hC hPsd hdef hD.pos (by positivity) (threeD_determined hD hS hind hfe) hN0) ?_ h₀ ops hops h
  rw [hD.q, hD.qstar, hD.dual, hD.dt]
  have h1 : ((k:ℝ) * N) ^ 2 ≤ (1e16) ^ 2 := pow_le_pow_left₀ (by positivity) hsize 2
  rw [one_mul, lt_div_iff₀ hNR]
  have e : 1e4 * (k:ℝ) ^ 2 * (((1:ℕ) + 1) ^ 2 / (1 / 2 / (N:ℝ))) * ((1e-20) ^ 2 * (((1:ℕ):ℝ) + 1) ^ 2) * N = 3.2e-35 * (k * N) ^ 2 := by
    field_simp; norm_num
  rw [e]
  norm_num at h1 ⊢
  linarith
end

/-! ## C103 -/

/-- C103: the solution on the grid and its derivative are those of the script (C67). -/
theorem C103_sample (m : Grid 2) (I : m.Cell) (t : ℝ) (y : ℕ → ℝ) :
    (m.cell I (m.sol3 t)).1 (fun a => y a) = Script.d3.sampleSol t y ∧
      (m.cell I (m.dsol3 t)).1 (fun a => y a) = Script.d3.dtSampleSol t y := by
  constructor
  · change _ * ∏ a, _ = _
    rw [Fin.prod_univ_three]; simp only [Script.sampleSol]; exact (mul_assoc _ _ _).symm.trans (by simp [mul_assoc])
  · change _ * ∏ a, _ = _
    rw [Fin.prod_univ_three]; simp only [Script.dtSampleSol]; exact (mul_assoc _ _ _).symm.trans (by simp [mul_assoc])

/-- At the final time of solve_3d.py the wave is not small. -/
theorem final_bound : 1 / 4 ≤ √(Real.cos (√3 * Real.pi * (1 / 2)) ^ 2 / 8) := by
  have hp := Real.pi_pos
  have s1 : (3 / 2 : ℝ) ≤ √3 := Real.le_sqrt_of_sq_le (by norm_num)
  have s2 : √3 ≤ (2:ℝ) := by rw [Real.sqrt_le_left (by norm_num)]; norm_num
  have h1 : Real.cos (√3 * Real.pi * (1 / 2)) ≤ Real.cos (Real.pi - Real.pi / 4) :=
    Real.cos_le_cos_of_nonneg_of_le_pi (by linarith) (by nlinarith) (by nlinarith)
  rw [Real.cos_pi_sub, Real.cos_pi_div_four] at h1
  refine Real.le_sqrt_of_sq_le ?_
  have h2 : (√2 / 2) ^ 2 ≤ (-Real.cos (√3 * Real.pi * (1 / 2))) ^ 2 := pow_le_pow_left₀ (by positivity) (by linarith) 2
  rw [div_pow, Real.sq_sqrt (by norm_num), neg_sq] at h2
  linarith

section
variable {k : ℕ} {hk : 0 < k} {interp : (Grid.unit 2 k hk).Broken →ₗ[ℝ] (Grid.unit 2 k hk).Broken}
  {ind : (Grid.unit 2 k hk).Broken} {om' : DataDomain (Grid.unit 2 k hk).Broken} {B : Built (Grid.unit 2 k hk).Broken}
  {C : Cfg (Grid.unit 2 k hk).Broken}

theorem unit3_norm (t : ℝ) : (Grid.unit 2 k hk).space.norm ((Grid.unit 2 k hk).sol3 t) = √(Real.cos (√3 * Real.pi * t) ^ 2 / 8) := by
  rw [Space.norm, Grid.sol3, Grid.unit_sines]
  norm_num

/-- Two sets of errors which agree up to `1e-9`. -/
def NearReport (r s : ErrDict) : Prop :=
  |r.l2T - s.l2T| ≤ 1e-9 ∧ |r.linfU - s.linfU| ≤ 1e-9 ∧ |r.linfUt - s.linfUt| ≤ 1e-9 ∧ |r.l2l2Ut - s.l2l2Ut| ≤ 1e-9

/-- The errors for the zero vector in `u`. -/
theorem report3_zero (hb : construct interp (Script.d3.args (Grid.unit 2 k hk).sol3 (Grid.unit 2 k hk).dsol3)
      (Script.d3.dataDomain ind) = (.ok B, om')) (hB : C.OfBuilt B) (hS : C.S = (Grid.unit 2 k hk).space) {rep : ErrDict}
    (hr : Report C 0 rep) : rep.l2T = √(Real.cos (√3 * Real.pi * (1 / 2)) ^ 2 / 8) ∧ rep.linfU = √(1 / 8) := by
  obtain ⟨b, -, e⟩ := construct_facts hb
  have hD := hB.D
  have hT := hB.T
  have hMe : C.Meas := Meas.of_construct hb (Script.N_pos .d3) (by norm_num [Script.args, Script.T])
    ⟨hB.D, hB.T, hB.dsol, hB.samples, hB.ptsHo, hB.wsHo⟩
  rw [e] at hD hT
  have hsol : C.D.sol = (Grid.unit 2 k hk).sol3 := by rw [hD]; rfl
  have hT1 : C.T = 1 / 2 := by rw [hT]; norm_num [builtOf, Script.args, Script.T]
  obtain ⟨-, -, m0, -, -⟩ := C41_samples hMe
  constructor
  · have h0 : C.node 0 (C.D.N - 1) C.D.q = 0 := by simp [Cfg.node, Cfg.u1Node, nodeAt, nodeFun]
    rw [hr.l2T, h0, norm_zero_sub, hS, hsol, hT1, unit3_norm]
  · refine hr.linfU.unique ⟨?_, ?_⟩
    · obtain ⟨j, hj, hI⟩ := C41_covered hMe m0
      refine ⟨j, hj, 0, m0, hI, ?_⟩
      rw [(recon_zero C j 0).1, norm_zero_sub, hS, hsol, unit3_norm]
      simp
    · rintro _ ⟨j, hj, t, ht, hI, rfl⟩
      rw [(recon_zero C j t).1, norm_zero_sub, hS, hsol, unit3_norm]
      refine Real.sqrt_le_sqrt ?_
      have := Real.cos_sq_le_one (√3 * Real.pi * t)
      linarith

/-- The solution of the linear system has little energy. -/
theorem small3_of_solution (hb : construct interp (Script.d3.args (Grid.unit 2 k hk).sol3 (Grid.unit 2 k hk).dsol3)
      (Script.d3.dataDomain ind) = (.ok B, om')) (hsize : k ≤ 1000) (hC : C.Ok) (hB : C.OfBuilt B)
    (hS : C.S = (Grid.unit 2 k hk).space) (hfe : C.fe.primal ≤ (Grid.unit 2 k hk).lagrange 1)
    {w₀ : World (Grid.unit 2 k hk).Broken} (h₀ : w₀.Fresh) {r : Ref} {w₁ : World (Grid.unit 2 k hk).Broken}
    (h : scriptSetup C w₀ = (.ok r, w₁)) {x : Vec} (hx : ∀ d < C.full.size, (stMatOf C false).mult x d = w₁.heap r d) :
    C.S.Psd C.D.ind ∧ C.Determined (1e4 * k ^ 2) ∧ Spec.energy C.S C.D C.D.ind (C.full.field C.fe x - C.full.field C.fe 0) ≤ 1.28e-38 := by
  have hD : ThreeDData C 8 := threeD_data (N := 8) hb (by norm_num) hB
  have hind : C.D.ind = 0 := by
    obtain ⟨b, -, e⟩ := construct_facts hb
    rw [hB.D, e]
    simp [builtOf, Script.dataDomain, Script.fitted, Script.fitted3, nxs, refLvl]
  have hnn : (Grid.unit 2 k hk).Nonneg C.D.ind := by
    intro I y _
    rw [hind]; exact le_rfl
  have hPsd : C.S.Psd C.D.ind := hS ▸ (Grid.unit 2 k hk).space_psd hnn
  have hdef : C.S.Definite := hS ▸ (Grid.unit 2 k hk).space_definite
  have hN0 : 0 < C.D.N := by rw [hD.N]; norm_num
  have hdet := threeD_determined hD hS hnn hfe
  have hk1 : (1:ℝ) ≤ k := by exact_mod_cast hk
  have hk2 : (k:ℝ) ^ 2 ≤ 1e6 := by
    have : (k:ℝ) ≤ 1000 := by exact_mod_cast hsize
    nlinarith
  have ho := C68_full_data_observe hC hPsd hdef hD.pos (by positivity) hdet hN0
  have hone : C.S.mass C.S.one C.S.one = 1 := by rw [hS]; exact Grid.unit_one
  have hE := placeholder_energy hC hPsd hD.pos ho (by
    rw [hD.q, hD.qstar, hD.dual, hD.dt]
    norm_num
    linarith) hN0 (C66_solution_energy hb hC hB h₀ h x hx)
  rw [hone, hD.qstar, hD.dual, hD.dt] at hE
  have hE' : Spec.energy C.S C.D C.D.ind (C.full.field C.fe x - C.full.field C.fe 0) ≤ 1.28e-38 := by
    rw [field_zero, sub_zero]
    refine hE.trans (le_of_eq ?_)
    norm_num
  exact ⟨hPsd, hdet, hE'⟩

theorem near3_of_solution (hb : construct interp (Script.d3.args (Grid.unit 2 k hk).sol3 (Grid.unit 2 k hk).dsol3)
      (Script.d3.dataDomain ind) = (.ok B, om')) (hsize : k ≤ 1000) (hC : C.Ok) (hB : C.OfBuilt B)
    (hS : C.S = (Grid.unit 2 k hk).space) (hfe : C.fe.primal ≤ (Grid.unit 2 k hk).lagrange 1)
    {w₀ : World (Grid.unit 2 k hk).Broken} (h₀ : w₀.Fresh) {r : Ref} {w₁ : World (Grid.unit 2 k hk).Broken}
    (h : scriptSetup C w₀ = (.ok r, w₁)) {x : Vec} (hx : ∀ d < C.full.size, (stMatOf C false).mult x d = w₁.heap r d)
    {rep rep0 : ErrDict} (hr : Report C x rep) (hr0 : Report C 0 rep0) : NearReport rep rep0 := by
  have hD : ThreeDData C 8 := threeD_data (N := 8) hb (by norm_num) hB
  have hk1 : (1:ℝ) ≤ k := by exact_mod_cast hk
  have hk2 : (k:ℝ) ^ 2 ≤ 1e6 := by
    have : (k:ℝ) ≤ 1000 := by exact_mod_cast hsize
    nlinarith
  have hMe : C.Meas := Meas.of_construct hb (Script.N_pos .d3) (by norm_num [Script.args, Script.T])
    ⟨hB.D, hB.T, hB.dsol, hB.samples, hB.ptsHo, hB.wsHo⟩
  obtain ⟨hPsd, hdet, hE'⟩ := small3_of_solution hb hsize hC hB hS hfe h₀ h hx
  obtain ⟨d1, d2, d3, d4⟩ := report_diff hC hPsd hD.pos (by positivity) hdet hE' hMe hr hr0
  rw [hD.q, hD.dt] at d1 d2 d3 d4
  have s1 : √(24 * (((1:ℕ):ℝ) + 1) ^ 4 * (1e4 * k ^ 2) / (1 / 2 / (8:ℤ)) * 1.28e-38) ≤ 1e-9 := by
    rw [Real.sqrt_le_left (by norm_num)]
    norm_num
    linarith
  have s2 : √(472 * (((1:ℕ):ℝ) + 1) ^ 4 * (1e4 * k ^ 2) / (1 / 2 / (8:ℤ)) ^ 3 * 1.28e-38) ≤ 1e-9 := by
    rw [Real.sqrt_le_left (by norm_num)]
    norm_num
    linarith
  have s3 : √(472 * (((1:ℕ):ℝ) + 1) ^ 4 * (1e4 * k ^ 2) / (1 / 2 / (8:ℤ)) ^ 2 * 1.28e-38) ≤ 1e-9 := by
    rw [Real.sqrt_le_left (by norm_num)]
    norm_num
    linarith
  exact ⟨d1.trans s1, d2.trans s1, d3.trans s2, d4.trans s3⟩

/-- C103, full statement: the error solve_3d.py reports at the final time for the solution of its linear system is at most half of the
norm of the wave it reconstructs.  False: `Example.C103_violated`. -/
def C103_statement : Prop := ∀ (k : ℕ) (hk : 0 < k) (interp : (Grid.unit 2 k hk).Broken →ₗ[ℝ] (Grid.unit 2 k hk).Broken)
    (ind : (Grid.unit 2 k hk).Broken) (B : Built (Grid.unit 2 k hk).Broken) (om' : DataDomain (Grid.unit 2 k hk).Broken)
    (C : Cfg (Grid.unit 2 k hk).Broken), k = 16 →
    construct interp (Script.d3.args (Grid.unit 2 k hk).sol3 (Grid.unit 2 k hk).dsol3) (Script.d3.dataDomain ind) = (.ok B, om') →
    C.Ok → C.OfBuilt B → C.S = (Grid.unit 2 k hk).space → C.fe = (Grid.unit 2 k hk).q1 →
    ∀ (w₀ w₁ z₀ z₁ : World (Grid.unit 2 k hk).Broken) (r : Ref) (A : Mat) (ops : List (Op (Grid.unit 2 k hk).Broken)) (x : InVec)
      (rep : ErrDict), w₀.Fresh → scriptSetup C w₀ = (.ok r, w₁) → C.Returns false A → z₀.Fresh →
    (∀ d < A.size, A.mult ((runOps C ops z₀).heap x.ref) d = w₁.heap r d) →
    measuredErrors C x.ref (runOps C ops z₀) = (.ok rep, z₁) → rep.l2T ≤ 1 / 2 * C.S.norm (C.D.sol C.T)

/-- C103, what holds: let a vector solve the linear system solve_3d.py sets up.  The errors `measured_errors` reports for it are, up to
`1e-9`, those it reports for the zero vector. -/
theorem C103_solution_partial (hb : construct interp (Script.d3.args (Grid.unit 2 k hk).sol3 (Grid.unit 2 k hk).dsol3)
      (Script.d3.dataDomain ind) = (.ok B, om')) (hsize : k ≤ 1000) (hC : C.Ok) (hB : C.OfBuilt B)
    (hS : C.S = (Grid.unit 2 k hk).space) (hfe : C.fe.primal ≤ (Grid.unit 2 k hk).lagrange 1)
    {w₀ : World (Grid.unit 2 k hk).Broken} (h₀ : w₀.Fresh) {r : Ref} {w₁ : World (Grid.unit 2 k hk).Broken}
    (h : scriptSetup C w₀ = (.ok r, w₁)) {A : Mat} (hA : C.Returns false A)
    {z₀ : World (Grid.unit 2 k hk).Broken} (hz : z₀.Fresh) (ops : List (Op (Grid.unit 2 k hk).Broken)) (x : InVec)
    (hx : ∀ d < A.size, A.mult ((runOps C ops z₀).heap x.ref) d = w₁.heap r d)
    {rep : ErrDict} {z₁ : World (Grid.unit 2 k hk).Broken} (hrep : measuredErrors C x.ref (runOps C ops z₀) = (.ok rep, z₁))
    {y₀ : World (Grid.unit 2 k hk).Broken} (hy : y₀.Fresh) (ops' : List (Op (Grid.unit 2 k hk).Broken)) (x' : InVec)
    (hx' : (runOps C ops' y₀).heap x'.ref = 0) {rep0 : ErrDict} {y₁ : World (Grid.unit 2 k hk).Broken}
    (hrep0 : measuredErrors C x'.ref (runOps C ops' y₀) = (.ok rep0, y₁)) :
    NearReport rep rep0 ∧ rep0.l2T = C.S.norm (C.D.sol C.T) ∧ rep0.linfU = C.S.norm (C.D.sol 0) ∧
      1 / 4 ≤ rep0.l2T ∧ rep0.linfU = √(1 / 8) := by
  have hMe : C.Meas := Meas.of_construct hb (Script.N_pos .d3) (by norm_num [Script.args, Script.T])
    ⟨hB.D, hB.T, hB.dsol, hB.samples, hB.ptsHo, hB.wsHo⟩
  have hPsd := (Grid.unit 2 k hk).space_psd (e := 0) fun I y _ => le_rfl
  rw [hA.eq] at hx
  have h0 := C42_any_history hMe (by rw [hS]; exact hPsd.mass) hy ops' x' hrep0
  rw [hx'] at h0
  obtain ⟨r1, r2⟩ := report3_zero hb hB hS h0
  obtain ⟨b, -, e⟩ := construct_facts hb
  have hsol : C.D.sol = (Grid.unit 2 k hk).sol3 := by rw [hB.D, e]; rfl
  have hT1 : C.T = 1 / 2 := by rw [hB.T, e]; norm_num [builtOf, Script.args, Script.T]
  refine ⟨near3_of_solution hb hsize hC hB hS hfe h₀ h hx (C42_any_history hMe (by rw [hS]; exact hPsd.mass) hz ops x hrep) h0,
    ?_, ?_, ?_, r2⟩
  · rw [r1, hS, hsol, hT1, unit3_norm]
  · rw [r2, hS, hsol, unit3_norm]; simp
  · rw [r1]
    exact final_bound

/-- C103 for the whole program, with either back end: if the vector GMRes returns solves the system, the reported errors are, up to
`1e-9`, those of the zero vector, with `√(1/8)` for the largest error in `u` and at least a quarter at the final time; if GMRes
stops at its initial guess zero, they are exactly those. -/
theorem C103_run (hb : construct interp (Script.d3.args (Grid.unit 2 k hk).sol3 (Grid.unit 2 k hk).dsol3)
      (Script.d3.dataDomain ind) = (.ok B, om')) (hsize : k ≤ 1000) (hC : C.Ok) (hB : C.OfBuilt B)
    (hS : C.S = (Grid.unit 2 k hk).space) (hfe : C.fe.primal ≤ (Grid.unit 2 k hk).lagrange 1)
    {Bk : Backend} {importable : Bool} {fF fS : Vec → Vec} (h1 : Works Bk importable (slabMatOf C false) fF)
    (h2 : Works Bk importable (slabMatOf C true) fS) {K : Krylov} (hK : 0 ≤ K.reason)
    {w : World (Grid.unit 2 k hk).Broken} (h₀ : w.Fresh) (hf : w.NoFail) {rep0 : ErrDict} (hr0 : Report C 0 rep0) :
    ∃ w₀ w₁ w₂ rep, scriptSetup C w = (.ok .rhs, w₀) ∧
      computeSol C .d3 Bk K (solverType importable) .rhs w₀ = (.ok (.user K.sol), w₁) ∧
      runScript C .d3 Bk K importable w = (.ok (.user K.sol, some rep), w₂) ∧
      (∀ A, C.Returns false A → (∀ d < A.size, A.mult (w₁.heap (.user K.sol)) d = w₀.heap .rhs d) → NearReport rep rep0) ∧
      (w₁.heap (.user K.sol) = 0 → rep = rep0) ∧ rep0.linfU = √(1 / 8) ∧ 1 / 4 ≤ rep0.l2T := by
  have hMe : C.Meas := Meas.of_construct hb (Script.N_pos .d3) (by norm_num [Script.args, Script.T])
    ⟨hB.D, hB.T, hB.dsol, hB.samples, hB.ptsHo, hB.wsHo⟩
  have hD : ThreeDData C 8 := threeD_data (N := 8) hb (by norm_num) hB
  have hPsd := (Grid.unit 2 k hk).space_psd (e := 0) fun I y _ => le_rfl
  obtain ⟨r1, r2⟩ := report3_zero hb hB hS hr0
  obtain ⟨w₀, w₁, w₂, rep, e0, e1, e2, hr⟩ := C46_completes hC hMe (by rw [hS]; exact hPsd.mass) hD.wp hD.fw h1 h2 hK .d3 h₀ hf
  refine ⟨w₀, w₁, w₂, rep, e0, e1, e2, ?_, fun hz => ?_, r2, r1 ▸ final_bound⟩
  · intro A hA hx
    rw [hA.eq] at hx
    exact near3_of_solution hb hsize hC hB hS hfe h₀ e0 hx hr hr0
  · rw [hz] at hr
    exact hr.unique hr0

end

namespace Example
open Grid

/-- The mesh of solve_3d.py. -/
noncomputable abbrev box : Grid 2 := Grid.unit 2 16 (by norm_num)

/-- solve_3d.py with its own mesh, elements and sample solution. -/
noncomputable def cfgBox (B : Built box.Broken) : Cfg box.Broken where
  S := box.space
  D := B.D
  fe := box.q1
  full := stdSpace (fullSizes 1 1 8) box.q1.m
  slab := stdSpace (slabSizes 1 1) box.q1.m
  coup := stdSpace couplingSizes box.q1.m
  bnd := stdSpace bndSizes box.q1.m
  pts := [-1, -0.575319, 0.181066, 0.822824].map fun pt : ℝ => 0.5 * (1 - 0) * pt + 0.5 * (1 + 0)
  ws := [0.125, 0.657689, 0.776387, 0.440924].map fun w : ℝ => 0.5 * 1 * w
  T := B.T
  dsol := B.dsol
  ptsHo := [-1, -0.72048, -0.167181, 0.446314, 0.885792].map fun pt : ℝ => 0.5 * (1 - 0) * pt + 0.5 * (1 + 0)
  wsHo := [0.08, 0.446208, 0.623653, 0.562712, 0.287427].map fun w : ℝ => 0.5 * 1 * w
  samples := B.samples

theorem builtBox (ind : box.Broken) : ∃ B om', construct LinearMap.id (Script.d3.args box.sol3 box.dsol3)
    (Script.d3.dataDomain ind) = (.ok B, om') ∧ (cfgBox B).Ok ∧ (cfgBox B).OfBuilt B := by
  obtain ⟨b, -, e⟩ := construct_run (interp := LinearMap.id) (a := Script.d3.args box.sol3 box.dsol3)
    (om := Script.d3.dataDomain ind) (Script.N_pos .d3).ne' (Script.d3.supported _ _)
  have hdt : (builtOf LinearMap.id (Script.d3.args box.sol3 box.dsol3) (Script.d3.dataDomain ind) b).D.dt = 1 / 2 / 8 := by
    simp [builtOf, Script.args, Script.T, Script.N, refLvlToN, refLvl]
  refine ⟨_, _, e, ?_, ?_⟩
  · refine ⟨⟨getElmatTime_ok ?_ ?_, ?_⟩, stdSpace_ok _ _, rfl, stdSpace_ok _ _, rfl, stdSpace_ok _ _, rfl,
      stdSpace_ok _ _, rfl⟩
    · simp [cfgBox, builtOf, Script.args, Script.otime, Script.order]
    · simp [cfgBox, builtOf, Script.args, Script.otime, Script.order]
    · rw [cfgBox, hdt]; norm_num
  · constructor <;> simp [cfgBox, builtOf, QuadRule.currentPts, QuadRule.tWeights, gaussRadau]

theorem measBox {ind : box.Broken} {B : Built box.Broken} {om' : DataDomain box.Broken}
    (hb : construct LinearMap.id (Script.d3.args box.sol3 box.dsol3) (Script.d3.dataDomain ind) = (.ok B, om'))
    (hB : (cfgBox B).OfBuilt B) : (cfgBox B).Meas :=
  Meas.of_construct hb (Script.N_pos .d3) (by norm_num [Script.args, Script.T])
    ⟨hB.D, hB.T, hB.dsol, hB.samples, hB.ptsHo, hB.wsHo⟩

/-- C102 and C103 for solve_3d.py itself: the solution of its system exists and is unique, and the errors reported for it
are those of the zero vector. -/
theorem solveBox (ind : box.Broken) : ∃ B om', construct LinearMap.id (Script.d3.args box.sol3 box.dsol3) (Script.d3.dataDomain ind)
      = (.ok B, om') ∧ (cfgBox B).Ok ∧ (cfgBox B).OfBuilt B ∧
    ∀ heap, ∃ w₁ A x ops, scriptSetup (cfgBox B) (freshWorld heap) = (.ok .rhs, w₁) ∧ (cfgBox B).Returns false A ∧
      (∀ d < A.size, A.mult x d = w₁.heap .rhs d) ∧ A.UniquelySolvable ∧ (runOps (cfgBox B) ops (freshWorld heap)).heap (.user 1) = x ∧
      ∃ rep z₁ rep0, measuredErrors (cfgBox B) (.user 1) (runOps (cfgBox B) ops (freshWorld heap)) = (.ok rep, z₁) ∧
        NearReport rep rep0 ∧ rep0.l2T = (cfgBox B).S.norm ((cfgBox B).D.sol (cfgBox B).T) ∧ 1 / 4 ≤ rep0.l2T := by
  obtain ⟨B, om', hb, hC, hB⟩ := builtBox ind
  refine ⟨B, om', hb, hC, hB, fun heap => ?_⟩
  obtain ⟨w₁, h, -⟩ := scriptSetup_run (C := cfgBox B) (freshWorld_fresh heap) (freshWorld_noFail _)
  have hA := returns (cfgBox B) false
  obtain ⟨v₀, ops, v₁, g₀, hops, hA'⟩ := hA
  have hind : (cfgBox B).D.ind = 0 := by
    obtain ⟨b, -, e⟩ := construct_facts hb
    rw [hB.D, e]
    simp [builtOf, Script.dataDomain, Script.fitted, Script.fitted3, nxs, refLvl]
  have hU := (C102_solve_3d (C := cfgBox B) (N := 8) hb (by norm_num) (by norm_num) hC hB rfl
    (fun I y _ => by rw [hind]; exact le_rfl) (q1_primal _) (q1_indep _) g₀ ops hops hA').2
  obtain ⟨x, hx, -⟩ := hU (w₁.heap .rhs)
  have hz : (runOps (cfgBox B) [.setupFE, .write 1 x] (freshWorld heap)).heap (.user 1) = x :=
    runOps_write (cfgBox B) [.setupFE] 1 x (freshWorld heap)
  have hz0 : (runOps (cfgBox B) [.setupFE, .write 1 0] (freshWorld heap)).heap (.user 1) = 0 :=
    runOps_write (cfgBox B) [.setupFE] 1 0 (freshWorld heap)
  have hPsd := box.space_psd (e := 0) fun I y _ => le_rfl
  obtain ⟨rep, z₁, hr⟩ := C42_returns (measBox hb hB) hPsd.mass (freshWorld_fresh heap) (freshWorld_noFail heap) [.write 1 x] (.user 1)
  obtain ⟨rep0, y₁, hr0⟩ := C42_returns (measBox hb hB) hPsd.mass (freshWorld_fresh heap) (freshWorld_noFail heap) [.write 1 0] (.user 1)
  obtain ⟨n1, n2, -, n4, -⟩ := C103_solution_partial hb (by norm_num) hC hB rfl (q1_primal _) (freshWorld_fresh heap) h
    ⟨v₀, ops, v₁, g₀, hops, hA'⟩ (freshWorld_fresh heap) [.setupFE, .write 1 x] (.user 1) (by rw [← hz] at hx; exact hx) hr
    (freshWorld_fresh heap) [.setupFE, .write 1 0] (.user 1) hz0 hr0
  exact ⟨w₁, _, x, _, h, ⟨v₀, ops, v₁, g₀, hops, hA'⟩, hx, hU, hz, rep, z₁, rep0, hr, n1, n2, n4⟩

/-- `C102_unique_solution` and `C102_determined` for solve_3d.py. -/
example (ind : box.Broken) : ∃ B om', construct LinearMap.id (Script.d3.args box.sol3 box.dsol3) (Script.d3.dataDomain ind)
      = (.ok B, om') ∧ ∃ K, 0 < K ∧ (cfgBox B).Determined K ∧
    ∀ heap, ∃ A w₁, getSpacetimeMatrix (cfgBox B) false (runOps (cfgBox B) [.setupFE] (freshWorld heap)) = (.ok A, w₁) ∧
      A.size = (cfgBox B).full.size ∧ A.UniquelySolvable := by
  obtain ⟨B, om', hb, hC, hB⟩ := builtBox ind
  have hD : ThreeDData (cfgBox B) 8 := threeD_data (N := 8) hb (by norm_num) hB
  have hind : (cfgBox B).D.ind = 0 := by
    obtain ⟨b, -, e⟩ := construct_facts hb
    rw [hB.D, e]
    simp [builtOf, Script.dataDomain, Script.fitted, Script.fitted3, nxs, refLvl]
  have hnn : box.Nonneg (cfgBox B).D.ind := fun I y _ => by rw [hind]; exact le_rfl
  have hlam : 0 < (cfgBox B).D.lam := by rw [hD.lam]; norm_num
  have hd : ∀ I : box.Cell, √((2:ℕ) + 1) / (16:ℕ) ≤ diam I ∧ diam I ≤ √((2:ℕ) + 1) / (16:ℕ) := fun I => by
    rw [Grid.unit_diam]; exact ⟨le_rfl, le_rfl⟩
  have hlen : (box.axis 1).x (box.axis 1).n - (box.axis 1).x 0 = 1 := by
    rw [(Grid.unit_ends 1).1, (Grid.unit_ends 1).2, sub_zero]
  have s1 : (1:ℝ) ≤ √((2:ℕ) + 1) := Real.le_sqrt_of_sq_le (by norm_num)
  have s2 : √((2:ℕ) + 1) ≤ (2:ℝ) := by rw [Real.sqrt_le_left (by norm_num)]; norm_num
  refine ⟨B, om', hb, _, ?_, C102_determined rfl hnn hD.pos hlam (q1_primal _) (by positivity) hd 1 hlen, fun heap => ?_⟩
  · rw [hD.lam, hD.primal]; positivity
  obtain ⟨w₁, h⟩ := getMatrix_ok (cfgBox B) false heap
  refine ⟨_, w₁, h, C102_unique_solution hC rfl hnn hD.pos hlam (by rw [hD.N]; norm_num) (q1_primal _) (q1_indep _) (by positivity)
    hd 1 hlen ?_ (freshWorld_fresh heap) _ (by simp [Op.OtherFlag]) h⟩
  rw [hD.lam, hD.primal, hD.q, hD.qstar, hD.dual, hD.dt]
  change 1 * (10 * (√((2:ℕ) + 1) / ((16:ℕ):ℝ) / 5) + 4 * (1 ^ 2 * (((16:ℕ):ℝ) / (√((2:ℕ) + 1) / (16:ℕ))))) / 1e-3 * _ * _ < _
  set s := √((2:ℕ) + (1:ℝ))
  have h2 : ((16:ℕ):ℝ) / (s / (16:ℕ)) ≤ 256 := by
    rw [div_div_eq_mul_div, div_le_iff₀ (by linarith)]
    norm_num; linarith
  norm_num at h2 s2 ⊢
  linarith

/-- C103 is false. -/
theorem C103_violated : ¬ C103_statement := by
  intro hst
  obtain ⟨B, om', hb, hC, hB, h⟩ := solveBox 0
  obtain ⟨w₁, A, x, ops, h1, h2, h3, -, h4, rep, z₁, rep0, h5, h6, h7, h8⟩ := h fun _ => 0
  have := hst 16 (by norm_num) LinearMap.id 0 B om' (cfgBox B) rfl hb hC hB rfl rfl _ _ _ _ _ _ ops (.user 1) rep (freshWorld_fresh _)
    h1 h2 (freshWorld_fresh _) (by rw [← h4] at h3; exact h3) h5
  rw [← h7] at this
  have h9 := (abs_le.1 h6.1).1
  norm_num at h8 h9 this
  linarith

/-- C103 for the whole program: GMRes stopping at its initial guess. -/
example (ind : box.Broken) : ∃ B om' rep0, construct LinearMap.id (Script.d3.args box.sol3 box.dsol3) (Script.d3.dataDomain ind)
      = (.ok B, om') ∧ rep0.linfU = √(1 / 8) ∧ 1 / 4 ≤ rep0.l2T ∧
      ∀ heap, ∃ w₂, runScript (cfgBox B) .d3 someBackend ⟨[.write 3 0], 2, 3⟩ false (freshWorld heap)
        = (.ok (.user 3, some rep0), w₂) := by
  obtain ⟨B, om', hb, hC, hB⟩ := builtBox ind
  have hPsd := box.space_psd (e := 0) fun I y _ => le_rfl
  obtain ⟨rep0, y₁, hr0⟩ := C42_returns (measBox hb hB) hPsd.mass (freshWorld_fresh fun _ => 0) (freshWorld_noFail fun _ => 0) [.write 1 0] (.user 1)
  have hR := C42_any_history (measBox hb hB) hPsd.mass (freshWorld_fresh fun _ => 0) [.setupFE, .write 1 0] (.user 1) hr0
  have hz0 : (runOps (cfgBox B) [.setupFE, .write 1 0] (freshWorld fun _ => 0)).heap (.user 1) = 0 :=
    runOps_write (cfgBox B) [.setupFE] 1 0 (freshWorld fun _ => 0)
  change Report _ ((runOps (cfgBox B) [.setupFE, .write 1 0] (freshWorld fun _ => 0)).heap (.user 1)) _ at hR
  rw [hz0] at hR
  obtain ⟨r1, r2⟩ := report3_zero hb hB rfl hR
  refine ⟨B, om', rep0, hb, r2, r1 ▸ final_bound, fun heap => ?_⟩
  obtain ⟨w₀, w₁, w₂, rep, h1, h2, h3, -, h4, -⟩ := C103_run hb (by norm_num) hC hB rfl (q1_primal _) (someBackend_lu _) (someBackend_lu _)
    (K := ⟨[.write 3 0], 2, 3⟩) (by decide) (freshWorld_fresh heap) (freshWorld_noFail heap) hR
  refine ⟨w₂, ?_⟩
  rw [← h4]
  · exact h3
  · change (do let A ← getSlabMatrix (cfgBox B); let A ← needMat A; setSolverSlab (someBackend.lu A); let A ← getSlabMatrixFirst
               let A ← needMat A; setSolverFirst (someBackend.lu A); gmres (cfgBox B) _ : WM _ Ref) w₀ = _ at h2
    obtain ⟨_, _, -, h2⟩ := M.ok_bind h2
    obtain ⟨_, _, -, h2⟩ := M.ok_bind h2
    obtain ⟨_, _, -, h2⟩ := M.ok_bind h2
    obtain ⟨_, _, -, h2⟩ := M.ok_bind h2
    obtain ⟨_, _, -, h2⟩ := M.ok_bind h2
    obtain ⟨_, v, -, h2⟩ := M.ok_bind h2
    have : w₁ = { v with heap := Function.update v.heap (.user 3) 0 } := (Prod.ext_iff.1 h2).2.symm
    rw [this]
    exact Function.update_self (Ref.user 3) (0 : Vec) v.heap

end Example

end Dxss
