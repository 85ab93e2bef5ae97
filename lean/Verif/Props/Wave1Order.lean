import Verif.Props.Fit
import Verif.Props.Standing

/-!
# Property C115: solve_1d.py with `ORDER` 1, 2 or 3 and data everywhere reconstructs its wave

C95 is the case `ORDER = 1` with at least as many cells as slabs; here the numbers of cells and slabs are independent, and the constants are
smaller.
-/

namespace Dxss
open Finset Real

section
variable {n : ℕ} {hn : 0 < n} {N : ℤ} {interp : (Mesh1.unit n hn).Broken →ₗ[ℝ] (Mesh1.unit n hn).Broken}
  {om' : DataDomain (Mesh1.unit n hn).Broken} {B : Built (Mesh1.unit n hn).Broken}
  {C : Cfg (Mesh1.unit n hn).Broken} {k : ℕ}

theorem numbers115 {N n E M : ℝ} (hN : 100 ≤ N) (hn : 100 ≤ n) (m1 : E ≤ 15830 * (1 / N) ^ 2 + 880 * (1 / n) ^ 2)
    (m2 : M ≤ 25 * (1 / N) ^ 4 + 49 * (1 / n) ^ 4) :
    √(96 * N * (3 * (E / 1e4 + M) + 2.5e-9)) + √M ≤ √(460 / N + 28 * (N / n ^ 2) + 2.5e-7 * N) + 5 / N ^ 2 + 7 / n ^ 2 := by
  have hN0 : 0 < N := by linarith
  have hn0 : 0 < n := by linarith
  have f : ∀ z : ℝ, 100 ≤ z → (1 / z) ^ 4 ≤ 1e-4 * (1 / z) ^ 2 := fun z hz => by
    have h1 : (1 / z) ^ 2 ≤ (1 / 100) ^ 2 := pow_le_pow_left₀ (by positivity) (one_div_le_one_div_of_le (by norm_num) hz) 2
    have e : (1 / z) ^ 4 = (1 / z) ^ 2 * (1 / z) ^ 2 := by ring
    rw [e]
    exact mul_le_mul_of_nonneg_right (h1.trans (by norm_num)) (by positivity)
  have f1 := f N hN
  have f2 := f n hn
  have b1 : 96 * N * (3 * (E / 1e4 + M) + 2.5e-9) ≤ 460 / N + 28 * (N / n ^ 2) + 2.5e-7 * N := by
    have p1 : 0 ≤ (1 / N) ^ 2 := by positivity
    have p2 : 0 ≤ (1 / n) ^ 2 := by positivity
    have c : 96 * (3 * (E / 1e4 + M) + 2.5e-9) ≤ 460 * (1 / N) ^ 2 + 28 * (1 / n) ^ 2 + 2.5e-7 := by
      generalize (1 / N) ^ 2 = X at *
      generalize (1 / n) ^ 2 = Y at *
      generalize (1 / N) ^ 4 = X' at *
      generalize (1 / n) ^ 4 = Y' at *
      rw [div_eq_mul_inv]
      norm_num at f1 f2 ⊢
      linarith
    have := mul_le_mul_of_nonneg_left c hN0.le
    have e1 : 96 * N * (3 * (E / 1e4 + M) + 2.5e-9) = N * (96 * (3 * (E / 1e4 + M) + 2.5e-9)) := by ring
    have e2 : 460 / N + 28 * (N / n ^ 2) + 2.5e-7 * N = N * (460 * (1 / N) ^ 2 + 28 * (1 / n) ^ 2 + 2.5e-7) := by field_simp
    rw [e1, e2]
    exact this
  have b2 : √M ≤ 5 / N ^ 2 + 7 / n ^ 2 := by
    rw [sqrt_le_left (by positivity)]
    refine m2.trans ?_
    have e : (5 / N ^ 2 + 7 / n ^ 2) ^ 2 = 25 * (1 / N) ^ 4 + 49 * (1 / n) ^ 4 + 70 * (1 / N ^ 2 * (1 / n ^ 2)) := by field_simp; ring
    rw [e]
    have : 0 ≤ 70 * (1 / N ^ 2 * (1 / n ^ 2)) := by positivity
    linarith
  rw [add_assoc]
  exact add_le_add (sqrt_le_sqrt b1) b2

/-- C115: solve_1d.py with `ORDER` 1, 2 or 3, `N ≥ 100` slabs, `n ≥ 100` cells, with data on the whole interval and a data domain which is not
fitted to the mesh (so that its indicator is not lost, C35).  If a vector solves the linear system, the error `measured_errors` reports for
the displacement, at the final time and over time, is at most `√(460/N + 28·N/n² + 2.5e-7·N) + 5/N² + 7/n²`. -/
theorem C115_error (hb : construct interp (orderArgs k N (Mesh1.unit n hn).sol1 (Mesh1.unit n hn).dsol1)
      ⟨(Mesh1.unit n hn).space.one, false⟩ = (.ok B, om')) (hN : 100 ≤ N) (hsize : (N : ℝ) ≤ 1e13) (hn1 : 100 ≤ n) (hk : 1 ≤ k)
    (hC : C.Ok) (hB : C.OfBuilt B) (hS : C.S = (Mesh1.unit n hn).space) (hfe : C.fe.primal = (Mesh1.unit n hn).lagrange k)
    {j : ℕ} (hfd : C.fe.dual ≤ (Mesh1.unit n hn).lagrange j)
    {w₀ : World (Mesh1.unit n hn).Broken} (h₀ : w₀.Fresh) {r : Ref} {w₁ : World (Mesh1.unit n hn).Broken}
    (h : scriptSetup C w₀ = (.ok r, w₁)) {A : Mat} (hA : C.Returns false A)
    {z₀ : World (Mesh1.unit n hn).Broken} (hz : z₀.Fresh) (ops : List (Op (Mesh1.unit n hn).Broken)) (x : InVec)
    (hx : ∀ d < A.size, A.mult ((runOps C ops z₀).heap x.ref) d = w₁.heap r d)
    {rep : ErrDict} {z₁ : World (Mesh1.unit n hn).Broken} (hrep : measuredErrors C x.ref (runOps C ops z₀) = (.ok rep, z₁)) :
    rep.l2T ≤ √(460 / N + 28 * (N / n ^ 2) + 2.5e-7 * N) + 5 / N ^ 2 + 7 / n ^ 2 ∧
      rep.linfU ≤ √(460 / N + 28 * (N / n ^ 2) + 2.5e-7 * N) + 5 / N ^ 2 + 7 / n ^ 2 := by
  have hN0 : 0 < N := by omega
  have hD := order_data hb hN0 hk hB
  obtain ⟨b, -, eB⟩ := construct_facts hb
  have hsol : C.D.sol = (standing tau (sin1 hn)).u1 := by
    rw [hB.D, eB]
    funext t
    exact fn_sin hn (ca t)
  have hdata : C.D.gData = 1e4 := by rw [hB.D, eB]; rfl
  have hNR : (100:ℝ) ≤ N := by exact_mod_cast hN
  have hNR0 : (0:ℝ) < N := by linarith
  have hnR : (100:ℝ) ≤ n := by exact_mod_cast hn1
  have hlam : 0 < C.D.lam := by linarith [hD.lam]
  have hdt1 : C.D.dt ≤ 1 / 32 := by rw [hD.dt]; exact one_div_le_one_div_of_le (by norm_num) (by linarith)
  have hDN : (C.D.N : ℝ) = N := by
    rw [hD.N]
    exact_mod_cast Int.toNat_of_nonneg (by omega : 0 ≤ N)
  have key := C105_standing_wave hb hN0 (by norm_num [orderArgs, Script.args, Script.T]) hC hB hS (Mesh1.unit n hn).space_definite hD.pos
    (by rw [hdata]; norm_num) hlam (by rw [hD.q]; exact hk) hC.disc.hq (hD.qstar.trans (by norm_num)) hD.wp hD.fw (by
      rw [hdata, hD.dual, hD.dt]
      have : (1e-13:ℝ) ≤ 1 / N := by
        rw [le_div_iff₀ hNR0]; norm_num at hsize ⊢; linarith
      have := pow_le_pow_left₀ (by norm_num) this 2
      norm_num at this ⊢
      linarith) (mode1 hn) (by rw [hfe]; exact sinI_mem hk)
    (by rw [← wave1_standing]; exact pk_wave hfd _) hsol h₀ h hA hz ops x hx hrep
  obtain ⟨m1, m2⟩ := mode1_numbers hn hD.lam hD.primal hD.dual hD.pos.dt hdt1 (by omega)
  rw [hD.dt] at m1 m2
  rw [hdata, hDN] at key
  have b := numbers115 hNR hnR m1 m2
  exact ⟨key.1.trans b, key.2.trans b⟩

/-- C115: with data everywhere the linear system has exactly one solution for every right hand side, for each order and every number of
cells. -/
theorem C115_unique (hb : construct interp (orderArgs k N (Mesh1.unit n hn).sol1 (Mesh1.unit n hn).dsol1)
      ⟨(Mesh1.unit n hn).space.one, false⟩ = (.ok B, om')) (hN : 0 < N) (hsize : (N : ℝ) ≤ 1e13) (hk : 1 ≤ k)
    (hC : C.Ok) (hB : C.OfBuilt B) (hS : C.S = (Mesh1.unit n hn).space) (hi : C.fe.Indep)
    {w₀ : World (Mesh1.unit n hn).Broken} (h₀ : w₀.Fresh) (ops : List (Op (Mesh1.unit n hn).Broken)) (hops : ∀ op ∈ ops, ¬ op.OtherFlag false)
    {A : Mat} {w₁ : World (Mesh1.unit n hn).Broken}
    (h : getSpacetimeMatrix C false (runOps C ops w₀) = (.ok A, w₁)) : A.size = C.full.size ∧ A.UniquelySolvable := by
  have hD := order_data hb hN hk hB
  obtain ⟨b, -, eB⟩ := construct_facts hb
  have hdata : C.D.gData = 1e4 := by rw [hB.D, eB]; rfl
  have hind : C.D.ind = (Mesh1.unit n hn).space.one := by rw [hB.D, eB]; simp [builtOf]
  have hPsd : C.S.Psd C.D.ind := by rw [hS, hind]; exact unit_psd hn
  have hNR : (0:ℝ) < N := by exact_mod_cast hN
  have hlam : 0 < C.D.lam := by linarith [hD.lam]
  have hdet : C.Determined (1 / C.D.gData) := by
    intro u _
    have p := hPsd.pen u; have g := hPsd.ghost u
    have e : C.S.omega C.D.ind u u = C.S.mass u u := by rw [hS, hind, omega_one1]
    have hp := hD.pos.primal
    have : 0 ≤ C.D.gPrimal * (C.D.lam * C.S.pen u u + C.S.ghost u u) := by positivity
    rw [e, one_div, ← div_eq_inv_mul, le_div_iff₀ (by rw [hdata]; norm_num)]
    linarith
  refine C68_observable_unique_solution hC hPsd (hS ▸ (Mesh1.unit n hn).space_definite) hD.pos hi
    (C68_full_data_observe hC hPsd (hS ▸ (Mesh1.unit n hn).space_definite) hD.pos (by rw [hdata]; norm_num) hdet (by rw [hD.N]; omega)) ?_ h₀ ops
    hops h
  have hq4 : ((C.D.q : ℝ) + 1) ^ 2 ≤ 16 := by
    have : (C.D.q : ℝ) ≤ 3 := by exact_mod_cast hC.disc.hq
    nlinarith [(Nat.cast_nonneg C.D.q : (0:ℝ) ≤ C.D.q)]
  have hq1 : ((C.D.qstar : ℝ) + 1) ^ 2 ≤ 4 := by
    have : (C.D.qstar : ℝ) ≤ 1 := by exact_mod_cast hD.qstar
    nlinarith [(Nat.cast_nonneg C.D.qstar : (0:ℝ) ≤ C.D.qstar)]
  rw [hdata, hD.dt, hD.dual, one_mul, lt_div_iff₀ hNR]
  calc 1 / 1e4 * (((C.D.q : ℝ) + 1) ^ 2 / (1 / N)) * ((1e-20) ^ 2 * ((C.D.qstar : ℝ) + 1) ^ 2) * N
      ≤ 1 / 1e4 * (16 / (1 / N)) * ((1e-20) ^ 2 * 4) * N := by gcongr
    _ = 6.4e-43 * (N:ℝ) ^ 2 := by field_simp; norm_num
    _ < 1 := by
      have := pow_le_pow_left₀ hNR.le hsize 2
      norm_num at this ⊢
      linarith

/-- C115: consequently, for `4500 ≤ N ≤ 100000` slabs and at least as many cells the error at the final time is at most half of the norm of the
wave — what C93 states, and what fails, for the script as it is. -/
theorem C115_half (hb : construct interp (orderArgs k N (Mesh1.unit n hn).sol1 (Mesh1.unit n hn).dsol1)
      ⟨(Mesh1.unit n hn).space.one, false⟩ = (.ok B, om')) (hN : 4500 ≤ N) (hN' : N ≤ 100000) (hNn : N ≤ n) (hk : 1 ≤ k)
    (hC : C.Ok) (hB : C.OfBuilt B) (hS : C.S = (Mesh1.unit n hn).space) (hfe : C.fe.primal = (Mesh1.unit n hn).lagrange k)
    {j : ℕ} (hfd : C.fe.dual ≤ (Mesh1.unit n hn).lagrange j)
    {w₀ : World (Mesh1.unit n hn).Broken} (h₀ : w₀.Fresh) {r : Ref} {w₁ : World (Mesh1.unit n hn).Broken}
    (h : scriptSetup C w₀ = (.ok r, w₁)) {A : Mat} (hA : C.Returns false A)
    {z₀ : World (Mesh1.unit n hn).Broken} (hz : z₀.Fresh) (ops : List (Op (Mesh1.unit n hn).Broken)) (x : InVec)
    (hx : ∀ d < A.size, A.mult ((runOps C ops z₀).heap x.ref) d = w₁.heap r d)
    {rep : ErrDict} {z₁ : World (Mesh1.unit n hn).Broken} (hrep : measuredErrors C x.ref (runOps C ops z₀) = (.ok rep, z₁)) :
    rep.l2T ≤ 1 / 2 * C.S.norm (C.D.sol C.T) := by
  have h1 : (4500:ℝ) ≤ N := by exact_mod_cast hN
  have h2 : (N:ℝ) ≤ 100000 := by exact_mod_cast hN'
  have h3 : (N:ℝ) ≤ n := by exact_mod_cast hNn
  have h0 : (0:ℝ) < N := by linarith
  have hn0 : (0:ℝ) < n := by linarith
  refine (C115_error hb (by omega) (h2.trans (by norm_num)) (by omega) hk hC hB hS hfe hfd h₀ h hA hz ops x hx hrep).1.trans ?_
  obtain ⟨b, -, e⟩ := construct_facts hb
  have e1 : C.D.sol = (Mesh1.unit n hn).sol1 := by rw [hB.D, e]; rfl
  have e2 : C.T = 1 := by rw [hB.T, e]; simp [builtOf, orderArgs, Script.args, Script.T]
  have e3 : C.S.norm (C.D.sol C.T) = √(1 / 2) := by
    rw [hS, e1, e2, ← norm_zero_sub, unit_norm_sol]
    simp
  rw [e3]
  have a0 : (N:ℝ) / n ^ 2 ≤ 1 / N := by
    rw [div_le_div_iff₀ (by positivity) h0, one_mul, ← sq]
    exact pow_le_pow_left₀ h0.le h3 2
  have a1 : √(460 / N + 28 * (N / n ^ 2) + 2.5e-7 * N) ≤ 0.34 := by
    rw [sqrt_le_left (by norm_num)]
    have : 488 / (N:ℝ) + 2.5e-7 * N ≤ 0.1156 := by
      rw [div_add' _ _ _ h0.ne', div_le_iff₀ h0]
      norm_num
      nlinarith [mul_nonneg (sub_nonneg.2 h1) (sub_nonneg.2 h2)]
    have e : 460 / (N:ℝ) + 28 * (1 / N) = 488 / N := by ring
    norm_num at *
    linarith
  have a2 : 5 / (N:ℝ) ^ 2 ≤ 0.001 := by
    rw [div_le_iff₀ (by positivity)]
    nlinarith
  have a3 : 7 / (n:ℝ) ^ 2 ≤ 0.001 := by
    rw [div_le_iff₀ (by positivity)]
    nlinarith
  have a4 : (0.7:ℝ) ≤ √(1 / 2) := le_sqrt_of_sq_le (by norm_num)
  norm_num at a1 a2 a3 a4 ⊢
  linarith

end

namespace Example
open Mesh1

section
variable {n : ℕ} {hn : 0 < n}

/-- solve_1d.py with `ORDER = k`, `n` cells and `N` slabs. -/
noncomputable def cfgKN (k : ℕ) (N : ℤ) (B : Built (Mesh1.unit n hn).Broken) : Cfg (Mesh1.unit n hn).Broken :=
  { cfgN N B with
    fe := (Mesh1.unit n hn).pk k
    full := stdSpace (fullSizes k (if k = 1 then 1 else 0) N.toNat) ((Mesh1.unit n hn).pk k).m
    slab := stdSpace (slabSizes k (if k = 1 then 1 else 0)) ((Mesh1.unit n hn).pk k).m
    coup := stdSpace couplingSizes ((Mesh1.unit n hn).pk k).m
    bnd := stdSpace bndSizes ((Mesh1.unit n hn).pk k).m }

theorem builtKN_of (sol : ℝ → (Mesh1.unit n hn).Broken) {k : ℕ} (hk : k ≤ 3) {N : ℤ} (hN : 0 < N) (ind : (Mesh1.unit n hn).Broken) : ∃ B om', construct LinearMap.id
      (orderArgs k N sol (Mesh1.unit n hn).dsol1) ⟨ind, false⟩ = (.ok B, om') ∧ (cfgKN k N B).Ok ∧ (cfgKN k N B).OfBuilt B := by
  have hq : ((if k = 1 then 1 else 0 : ℤ)).toNat = if k = 1 then 1 else 0 := by split <;> rfl
  obtain ⟨b, -, e⟩ := construct_run (interp := LinearMap.id) (a := orderArgs k N sol (Mesh1.unit n hn).dsol1)
    (om := ⟨ind, false⟩) (by simpa [orderArgs] using hN.ne') (by
      refine ⟨⟨by simp [orderArgs], by simp only [orderArgs]; exact_mod_cast hk⟩, ?_⟩
      simp only [orderArgs]
      split <;> norm_num)
  have hdt : (builtOf LinearMap.id (orderArgs k N sol (Mesh1.unit n hn).dsol1) ⟨ind, false⟩ b).D.dt = 1 / N := by
    simp [builtOf, orderArgs, Script.args, Script.T]
  have hNR : (N:ℝ) ≠ 0 := by exact_mod_cast hN.ne'
  refine ⟨_, _, e, ?_, ?_⟩
  · refine ⟨⟨getElmatTime_ok ?_ ?_, ?_⟩, stdSpace_ok _ _, ?_, stdSpace_ok _ _, ?_, stdSpace_ok _ _, rfl,
      stdSpace_ok _ _, rfl⟩
    · simpa [cfgKN, cfgN, builtOf, orderArgs] using hk
    · simp only [cfgKN, cfgN, builtOf, orderArgs]
      split <;> simp
    · rw [cfgKN, cfgN, hdt]; exact one_div_ne_zero hNR
    · simp only [cfgKN, cfgN, builtOf, orderArgs, stdSpace, hq]; rfl
    · simp only [cfgKN, cfgN, builtOf, orderArgs, stdSpace, hq]; rfl
  · constructor <;> simp [cfgKN, cfgN, builtOf, QuadRule.currentPts, QuadRule.tWeights, gaussRadau]

theorem builtKN {k : ℕ} (hk : k ≤ 3) {N : ℤ} (hN : 0 < N) (ind : (Mesh1.unit n hn).Broken) : ∃ B om', construct LinearMap.id
      (orderArgs k N (Mesh1.unit n hn).sol1 (Mesh1.unit n hn).dsol1) ⟨ind, false⟩ = (.ok B, om') ∧ (cfgKN k N B).Ok ∧ (cfgKN k N B).OfBuilt B :=
  builtKN_of _ hk hN ind

/-- C115 for each order, 5000 slabs and at least as many cells: the system has a solution, `measured_errors` returns for it, and the error is
at most half of the norm of the wave. -/
example {k : ℕ} (h1 : 1 ≤ k) (h3 : k ≤ 3) (hn5 : 5000 ≤ n) : ∃ B om', construct LinearMap.id
      (orderArgs k 5000 (Mesh1.unit n hn).sol1 (Mesh1.unit n hn).dsol1) ⟨(Mesh1.unit n hn).space.one, false⟩ = (.ok B, om') ∧
    ∃ w₁ A x ops rep z₁, scriptSetup (cfgKN k 5000 B) (freshWorld fun _ => 0) = (.ok .rhs, w₁) ∧ (cfgKN k 5000 B).Returns false A ∧
      (∀ d < A.size, A.mult x d = w₁.heap .rhs d) ∧ A.UniquelySolvable ∧
      (runOps (cfgKN k 5000 B) ops (freshWorld fun _ => 0)).heap (.user 1) = x ∧
      measuredErrors (cfgKN k 5000 B) (.user 1) (runOps (cfgKN k 5000 B) ops (freshWorld fun _ => 0)) = (.ok rep, z₁) ∧
      rep.l2T ≤ 1 / 2 * (cfgKN k 5000 B).S.norm ((cfgKN k 5000 B).D.sol (cfgKN k 5000 B).T) := by
  obtain ⟨B, om', hb, hC, hB⟩ := builtKN (n := n) (hn := hn) h3 (N := 5000) (by norm_num) (Mesh1.unit n hn).space.one
  refine ⟨B, om', hb, ?_⟩
  obtain ⟨w₁, h, -⟩ := scriptSetup_run (C := cfgKN k 5000 B) (freshWorld_fresh fun _ => 0) (freshWorld_noFail _)
  obtain ⟨v₀, ops, v₁, g₀, hops, hA'⟩ := returns (cfgKN k 5000 B) false
  have hU := (C115_unique (C := cfgKN k 5000 B) hb (by norm_num) (by norm_num) h1 hC hB rfl ((Mesh1.unit n hn).pk_indep k) g₀ ops hops hA').2
  obtain ⟨x, hx, -⟩ := hU (w₁.heap .rhs)
  have hz : (runOps (cfgKN k 5000 B) [.setupFE, .write 1 x] (freshWorld fun _ => 0)).heap (.user 1) = x :=
    runOps_write (cfgKN k 5000 B) [.setupFE] 1 x (freshWorld fun _ => 0)
  have hMe : (cfgKN k 5000 B).Meas := Meas.of_construct hb (by norm_num [orderArgs]) (by norm_num [orderArgs, Script.args, Script.T])
    ⟨hB.D, hB.T, hB.dsol, hB.samples, hB.ptsHo, hB.wsHo⟩
  obtain ⟨rep, z₁, hr⟩ := C42_returns hMe (unit_psd hn).mass (freshWorld_fresh fun _ => 0) (freshWorld_noFail fun _ => 0) [.write 1 x] (.user 1)
  have hd : ((Mesh1.unit n hn).pk k).dual ≤ (Mesh1.unit n hn).lagrange 1 := Submodule.span_le.2 (by
    rintro _ ⟨s, -, rfl⟩
    exact (Mesh1.unit n hn).hat_mem s)
  have n1 := C115_half (C := cfgKN k 5000 B) hb (by norm_num) (by norm_num) (by exact_mod_cast hn5) h1 hC hB rfl ((Mesh1.unit n hn).pk_primal k) hd
    (freshWorld_fresh _) h ⟨v₀, ops, v₁, g₀, hops, hA'⟩ (freshWorld_fresh _) [.setupFE, .write 1 x] (.user 1) (by rw [← hz] at hx; exact hx) hr
  exact ⟨w₁, _, x, _, rep, z₁, h, ⟨v₀, ops, v₁, g₀, hops, hA'⟩, hx, hU, hz, hr, n1⟩

end
end Example
end Dxss
