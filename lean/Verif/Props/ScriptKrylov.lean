import Verif.Props.SlabSolvable
import Verif.Props.Iterations

/-!
# Property C119: GMRES steps for the scripts, whatever the data
-/

namespace Dxss
open Finset Gmres

section
variable {V : Type} [AddCommGroup V] [Module ℝ V] {C : Cfg V}

/-- The conclusion of C84: the object is prepared by the documented calls, with solvers for the slab matrices it hands out; `op` and `pre` are
the maps its matrix-free product and its preconditioner compute.  The vectors `pre(b)`, `pre(A pre(b))`, … up to the number of interface
unknowns span the solution; so `get_gmres_solution` returns if it may use more steps and is not restarted before. -/
def Cfg.FewSteps (C : Cfg V) : Prop :=
  ∀ (w₀ : World V), w₀.Fresh → w₀.NoFail → ∀ (ops : List (Op V)) (A₁ A₂ : Mat), C.ReturnsSlab A₁ A₂ → ∀ fF fS : Vec → Py Vec,
    SolversSet C ops fF fS → Solves fF A₁ → Solves fS A₂ → ∀ op pre : Vec → Vec,
    Computed C (runOps C (.setupFE :: .prepare :: ops) w₀).obj .apply op →
    Computed C (runOps C (.setupFE :: .prepare :: ops) w₀).obj .preImproved pre → ∀ b : Vec,
    (∃ a : ℕ → ℝ, ∀ d < C.full.size,
      op (fun e => ∑ i ∈ range ((C.D.N - 1) * (C.fe.m 0 + C.fe.m 1) + 1), a i * kry op pre b i e) d = b d) ∧
    ∀ P : Petsc, ExactGmres P op pre C.full.size b → P.parseBool "true" = some true →
      ∀ (maxsteps : ℤ) (tol : Option ℝ) (restart : Option ℤ) (printrates : Bool) (reltol : Option ℝ) (s : GSt),
      ValidTol (orDefault reltol 1e-7) (orDefault tol 1e-12) maxsteps → NoOverride s.db →
      ((C.D.N - 1) * (C.fe.m 0 + C.fe.m 1) : ℕ) < maxsteps → maxsteps ≤ orDefault restart 1000 →
      ∃ x r s', getGmresSolution P op C.full.size b pre maxsteps tol restart printrates reltol s = (.ok (x, r), s')

/-- The conditions of C84 met. -/
theorem fewSteps_of (hC : C.Ok) (hS : C.S.Psd C.D.ind) (hd : C.S.Definite) (hp : C.D.Positive) (hi : C.fe.Indep) (hN : 1 ≤ C.D.N)
    (hwp : C.D.wellPosed = false) (hfw : C.D.jumpsFw = false) {K : ℝ} (ho : C.ObservableAll K)
    (hK : K * ((1e-20 * C.D.N) ^ 2 * (C.D.qstar + 1) ^ 2) < C.D.gDual * C.D.dt) (hP : C.PrecondSolvable) : C.FewSteps := by
  intro w₀ h₀ hf ops A₁ A₂ hA fF fS hs hF hSl op pre hop hpre b
  obtain ⟨-, -, u₁, u₂⟩ := hP.1 A₁ A₂ hA
  obtain ⟨⟨w, ops₁, w₁, h₀', h₁⟩, ⟨w', ops₂, w₁', h₀'', h₂⟩⟩ := hA
  exact ⟨C84_finite_termination hC hS hd hp hi hN hwp hfw ho hK h₀ hf h₀' h₀'' ops ops₁ ops₂ h₁ h₂ u₁ u₂ hs hF hSl hop hpre b,
    fun P hP hb maxsteps tol restart printrates reltol s hv hno hsteps hrestart =>
      C84_gmres_returns hC hS hd hp hi hN hwp hfw ho hK h₀ hf h₀' h₀'' ops ops₁ ops₂ h₁ h₂ u₁ u₂ hs hF hSl hop hpre b hP hb
        maxsteps tol restart printrates reltol hv hno hsteps hrestart⟩

/-- The estimate of C107 at the beginning of every slab. -/
theorem C119_observable (hC : C.Ok) (hS : C.S.Psd C.D.ind) (hd : C.S.Definite) (hp : C.D.Positive) (hlam : 0 < C.D.lam)
    (hN : 0 < C.D.N) {c H : ℝ} (hc0 : 0 ≤ c) (hH0 : 0 ≤ H) (hc : C.EllipticBound c) (hH : ∀ v, C.S.h2 v v ≤ H * C.S.mass v v) :
    C.ObservableAll (orderConst c H C.D.dt C.D.gPrimal * ((C.D.q + 1) ^ 2 / C.D.dt)) := by
  refine ⟨fun x n hn => ?_, (C107_observable hC hS hd hp hlam hN hc0 hH0 hc hH).start⟩
  have hdt := hp.dt
  have h0 := C107_control hC hS hp hc0 hH0 hc hH x 0
  rw [field_zero, sub_zero, Pi.zero_apply, sub_zero] at h0
  have h1 := bottom_control hC.disc.hq hdt n C.S.mass hS.mass C.S.mass_symm (C.full.field C.fe x 0)
  have h2 : slabSq C.S.mass C.D.q C.D.dt n (C.full.field C.fe x 0) ≤ ∑ n ∈ range C.D.N, slabSq C.S.mass C.D.q C.D.dt n (C.full.field C.fe x 0) :=
    single_le_sum (f := fun n => slabSq C.S.mass C.D.q C.D.dt n (C.full.field C.fe x 0))
      (fun n _ => slabSq_nonneg C.S.mass hS.mass hdt _ n) (mem_range.2 hn)
  have h3 := h1.trans (h2.trans h0)
  have h5 := mul_le_mul_of_nonneg_left h3 (by positivity : 0 ≤ (C.D.q + 1 : ℝ) ^ 2 / C.D.dt)
  set m := C.S.mass (C.full.field C.fe x 0 (n * (C.D.q + 1))) (C.full.field C.fe x 0 (n * (C.D.q + 1)))
  have e : (C.D.q + 1 : ℝ) ^ 2 / C.D.dt * (C.D.dt / (C.D.q + 1) ^ 2 * m) = m := by field_simp
  rw [e] at h5
  linarith

/-- C119: without forward jumps and well_posed, for every data domain and elements of every order. -/
theorem C119_few_steps (hC : C.Ok) (hS : C.S.Psd C.D.ind) (hd : C.S.Definite) (hp : C.D.Positive) (hlam : 0 < C.D.lam)
    (hN : 0 < C.D.N) (hfw : C.D.jumpsFw = false) (hi : C.fe.Indep) (hwp : C.D.wellPosed = false) {c H : ℝ} (hc0 : 0 ≤ c) (hH0 : 0 ≤ H)
    (hc : C.EllipticBound c) (hH : ∀ v, C.S.h2 v v ≤ H * C.S.mass v v)
    (hK : orderConst c H C.D.dt C.D.gPrimal * ((C.D.q + 1) ^ 2 / C.D.dt) * ((1e-20 * C.D.N) ^ 2 * (C.D.qstar + 1) ^ 2)
      < C.D.gDual * C.D.dt) : C.FewSteps := by
  refine fewSteps_of hC hS hd hp hi hN hwp hfw (C119_observable hC hS hd hp hlam hN hc0 hH0 hc hH) hK
    (C118_bound hC hS hd hp hlam hfw hi hwp hc0 hH0 hc hH (lt_of_le_of_lt ?_ hK))
  have hdt := hp.dt
  have hX : 0 ≤ orderConst c H C.D.dt C.D.gPrimal * ((C.D.q + 1) ^ 2 / C.D.dt) :=
    mul_nonneg (by have := hp.weights.primal; unfold orderConst; positivity) (by positivity)
  refine mul_le_mul_of_nonneg_left (mul_le_mul_of_nonneg_right ?_ (by positivity)) hX
  have h1 : (1:ℝ) ≤ C.D.N := by exact_mod_cast hN
  exact pow_le_pow_left₀ (by norm_num) (le_mul_of_one_le_right (by norm_num) h1) 2

end

section
variable {n : ℕ} {hn : 0 < n} {N : ℤ} {k : ℕ} {sol dsol : ℝ → (Mesh1.unit n hn).Broken}
  {interp : (Mesh1.unit n hn).Broken →ₗ[ℝ] (Mesh1.unit n hn).Broken} {om om' : DataDomain (Mesh1.unit n hn).Broken}
  {B : Built (Mesh1.unit n hn).Broken} {C : Cfg (Mesh1.unit n hn).Broken}

/-- C119 for solve_1d.py with `ORDER` 1, 2 or 3, any number of cells and slabs up to a bound, and any data domain. -/
theorem C119_solve_1d (hb : construct interp (orderArgs k N sol dsol) om = (.ok B, om')) (hN : 0 < N) (hk : 1 ≤ k)
    (hsize : (n : ℝ) * N ^ 5 ≤ 1e12) (hC : C.Ok) (hB : C.OfBuilt B) (hS : C.S = (Mesh1.unit n hn).space)
    (hind : (Mesh1.unit n hn).Nonneg C.D.ind) (hfe : C.fe.primal ≤ (Mesh1.unit n hn).lagrange k) (hi : C.fe.Indep) : C.FewSteps := by
  have hD := order_data hb hN hk hB
  obtain ⟨h1, h2, h3⟩ := order_bound hD hN hS hfe
  refine C119_few_steps hC (hS ▸ (Mesh1.unit n hn).space_psd hind) (hS ▸ (Mesh1.unit n hn).space_definite) hD.pos (by linarith [hD.lam])
    (by rw [hD.N]; omega) hD.fw hi hD.wp (by positivity) (by positivity) h1 h2 ?_
  have hNR : (0:ℝ) < N := by exact_mod_cast hN
  have key := order_le hC hD hN hn h3
  have hCN : (C.D.N : ℝ) = N := by
    rw [hD.N]
    exact_mod_cast Int.toNat_of_nonneg hN.le
  have hdt : C.D.dt = 1 / (N:ℝ) := hD.dt
  rw [hD.dual, one_mul, hCN]
  generalize orderConst (54 * n ^ 2) ((1 / n) ^ 2) C.D.dt C.D.gPrimal * ((C.D.q + 1) ^ 2 / C.D.dt) = X at *
  rw [hdt, lt_div_iff₀ hNR]
  have e : X * ((1e-20 * (N:ℝ)) ^ 2 * (C.D.qstar + 1) ^ 2) * N = N ^ 2 * (X * ((1e-20) ^ 2 * (C.D.qstar + 1) ^ 2) * N) := by ring
  rw [e]
  refine (mul_le_mul_of_nonneg_left key (by positivity)).trans_lt ?_
  have hsz : (n * (N:ℝ) ^ 5) ^ 2 ≤ (1e12 : ℝ) ^ 2 := pow_le_pow_left₀ (by positivity) hsize 2
  have e2 : (N:ℝ) ^ 2 * (1.728e-26 * (n * N ^ 4) ^ 2) = 1.728e-26 * (n * (N:ℝ) ^ 5) ^ 2 := by ring
  rw [e2]
  norm_num at hsz ⊢
  linarith

end

section
variable {m : Tri} {hm hM δ R : ℝ} {N : ℤ} {sol dsol : ℝ → m.Broken} {interp : m.Broken →ₗ[ℝ] m.Broken} {om om' : DataDomain m.Broken}
  {B : Built m.Broken} {C : Cfg m.Broken}

/-- C119 for solve_2d.py on any triangulation, with any data domain. -/
theorem C119_solve_2d (hb : construct interp { Script.d2.args sol dsol with N := N } om = (.ok B, om')) (hN : 0 < N)
    (hC : C.Ok) (hB : C.OfBuilt B) (hS : C.S = m.space) (hind : m.Nonneg C.D.ind) (hfe : C.fe.primal ≤ m.lagrange 3) (hi : C.fe.Indep)
    (hbd : m.Bounds hm hM δ R) (hsize : orderConst (triConst hm hM δ R 45) (hM ^ 2) (1 / N) 1e-3 * N ^ 4 ≤ 3e37) : C.FewSteps := by
  have hD := twoD_data hb hN hB
  have hNR : (0:ℝ) < N := by exact_mod_cast hN
  have hlam : 0 < C.D.lam := by rw [hD.lam]; norm_num
  have hCN : (C.D.N : ℝ) = N := by
    rw [hD.N]
    exact_mod_cast Int.toNat_of_nonneg hN.le
  refine C119_few_steps hC (hS ▸ m.space_psd hind) (hS ▸ m.space_definite) hD.pos hlam (by rw [hD.N]; omega) hD.fw hi hD.wp
    (triConst_nonneg hbd hlam) (sq_nonneg hM) (C110_elliptic hS hlam le_rfl hfe hbd) (by rw [hS]; exact fun v => (Tri.h2_le hbd v).2) ?_
  rw [hD.lam, hD.dt, hD.primal, hD.q, hD.qstar, hD.dual, one_mul, hCN, lt_div_iff₀ hNR]
  set X := orderConst (triConst hm hM δ R 45) (hM ^ 2) (1 / N) 1e-3
  have e : X * ((((3:ℕ):ℝ) + 1) ^ 2 / (1 / (N:ℝ))) * ((1e-20 * (N:ℝ)) ^ 2 * (((3:ℕ):ℝ) + 1) ^ 2) * N = 2.56e-38 * (X * N ^ 4) := by
    norm_num; ring
  rw [e]
  generalize X * (N:ℝ) ^ 4 = Y at *
  norm_num at hsize ⊢
  linarith

end

section
variable {k : ℕ} {hk : 0 < k} {N : ℤ} {sol dsol : ℝ → (Grid.unit 2 k hk).Broken}
  {interp : (Grid.unit 2 k hk).Broken →ₗ[ℝ] (Grid.unit 2 k hk).Broken} {om om' : DataDomain (Grid.unit 2 k hk).Broken}
  {B : Built (Grid.unit 2 k hk).Broken} {C : Cfg (Grid.unit 2 k hk).Broken}

/-- C119 for solve_3d.py with any number of cells and slabs, and any data domain. -/
theorem C119_solve_3d (hb : construct interp { Script.d3.args sol dsol with N := N } om = (.ok B, om')) (hN : 0 < N)
    (hsize : (k : ℝ) * N ^ 2 ≤ 1e16) (hC : C.Ok) (hB : C.OfBuilt B) (hS : C.S = (Grid.unit 2 k hk).space)
    (hind : (Grid.unit 2 k hk).Nonneg C.D.ind) (hfe : C.fe.primal ≤ (Grid.unit 2 k hk).lagrange 1) (hi : C.fe.Indep) : C.FewSteps := by
  have hD := threeD_data hb hN hB
  have hPsd : C.S.Psd C.D.ind := hS ▸ (Grid.unit 2 k hk).space_psd hind
  have hNR : (1:ℝ) ≤ N := by exact_mod_cast hN
  have hdef : C.S.Definite := hS ▸ (Grid.unit 2 k hk).space_definite
  have hCN : (C.D.N : ℝ) = N := by
    rw [hD.N]
    exact_mod_cast Int.toNat_of_nonneg hN.le
  have hN1 : 1 ≤ C.D.N := by rw [hD.N]; omega
  refine fewSteps_of hC hPsd hdef hD.pos hi hN1 hD.wp hD.fw (determined_observes hC hPsd hdef hD.pos (by positivity)
    (threeD_determined hD hS hind hfe) hN1) ?_ (C118_solve_3d hb hN ((mul_le_mul_of_nonneg_left ?_ (Nat.cast_nonneg k)).trans hsize)
      hC hB hS hind hfe hi)
  · rw [hD.q, hD.qstar, hD.dual, hD.dt, hCN]
    have h1 : ((k:ℝ) * N ^ 2) ^ 2 ≤ (1e16) ^ 2 := pow_le_pow_left₀ (by positivity) hsize 2
    rw [one_mul, lt_div_iff₀ (by linarith)]
    have e : 1e4 * (k:ℝ) ^ 2 * (((1:ℕ) + 1) ^ 2 / (1 / 2 / (N:ℝ))) * ((1e-20 * (N:ℝ)) ^ 2 * (((1:ℕ):ℝ) + 1) ^ 2) * N
        = 3.2e-35 * (k * N ^ 2) ^ 2 := by
      field_simp; norm_num
    rw [e]
    norm_num at h1 ⊢
    linarith
  · nlinarith

end

/-! ## Non-vacuity -/

namespace Example
open Grid Tri

section
variable {V : Type} [AddCommGroup V] [Module ℝ V]

/-- Solvers, the maps of product and preconditioner, and a GMRES in exact arithmetic exist; with one step more than there are interface unknowns
it returns. -/
def Uses (C : Cfg V) (b : Vec) : Prop :=
  ∃ (ops : List (Op V)) (A₁ A₂ : Mat) (fF fS : Vec → Py Vec) (op pre : Vec → Vec) (P : Petsc), C.ReturnsSlab A₁ A₂ ∧ SolversSet C ops fF fS ∧
    Solves fF A₁ ∧ Solves fS A₂ ∧ Computed C (runOps C (.setupFE :: .prepare :: ops) (freshWorld fun _ => 0)).obj .apply op ∧
    Computed C (runOps C (.setupFE :: .prepare :: ops) (freshWorld fun _ => 0)).obj .preImproved pre ∧ ExactGmres P op pre C.full.size b ∧
    ∃ x r s', getGmresSolution P op C.full.size b pre (((C.D.N - 1) * (C.fe.m 0 + C.fe.m 1) : ℕ) + 1) none
      (some (((C.D.N - 1) * (C.fe.m 0 + C.fe.m 1) : ℕ) + 1)) true none Gmres.Example.s0 = (.ok (x, r), s')

theorem uses {C : Cfg V} (hC : C.Ok) (hN : 1 ≤ C.D.N) (hwp : C.D.wellPosed = false) (hfw : C.D.jumpsFw = false) (hP : C.PrecondSolvable)
    (hF : C.FewSteps) (b : Vec) : Uses C b := by
  obtain ⟨A₁, A₂, hA⟩ := returnsSlab C
  obtain ⟨-, -, u₁, u₂⟩ := hP.1 A₁ A₂ hA
  choose fF hF' using id u₁
  choose fS hS' using id u₂
  have sF : Solves (fun r => .ok (fF r)) A₁ := fun r u h e he => by cases h; exact (hF' r).1 e he
  have sS : Solves (fun r => .ok (fS r)) A₂ := fun r u h e he => by cases h; exact (hS' r).1 e he
  obtain ⟨ops, hs⟩ : ∃ ops, SolversSet C ops (fun r => .ok (fF r)) (fun r => .ok (fS r)) :=
    ⟨[.setSolverFirst (solverOf fun r => .ok (fF r)), .setSolverSlab (solverOf fun r => .ok (fS r))],
      ⟨solverOf fun r => .ok (fF r), by simp⟩, ⟨solverOf fun r => .ok (fS r), by simp⟩,
      fun s hs => by simp at hs; subst hs; exact solverOf_computes _ _, fun s hs => by simp at hs; subst hs; exact solverOf_computes _ _⟩
  obtain ⟨op, pre, hop, hpre⟩ := C79_maps_exist hC hwp hfw (freshWorld_fresh fun _ => 0) (freshWorld_noFail _) _ hs
    (fun b => ⟨_, rfl⟩) (fun b => ⟨_, rfl⟩)
  obtain ⟨⟨a, ha⟩, hret⟩ := hF _ (freshWorld_fresh fun _ => 0) (freshWorld_noFail _) ops A₁ A₂ hA _ _ hs sF sS op pre hop hpre b
  set r := (C.D.N - 1) * (C.fe.m 0 + C.fe.m 1)
  have hz : vnorm C.full.size (pre fun i => b i - op (fun e => ∑ i ∈ range (r + 1), a i * kry op pre b i e) i) = 0 := by
    obtain ⟨-, hpr⟩ := documented_ready hwp (freshWorld_fresh fun _ => 0) (freshWorld_noFail _) hs
    obtain ⟨e1, e2⟩ := hA.eq
    have sF' := sF
    have sS' := sS
    rw [e1] at sF' u₁
    rw [e2] at sS' u₂
    rw [hwp] at sF' u₁
    have := pAll_kernel hC hN hfw (by rw [hwp]; exact u₁.kernel) u₂.kernel fun d hd =>
      (computed_pre hC hN hfw hpr (by rw [hwp]; exact sF') sS' hpre
        (fun i => b i - op (fun e => ∑ i ∈ range (r + 1), a i * kry op pre b i e) i) hd).symm.trans (sub_eq_zero.2 (ha d hd).symm)
    rw [vnorm, sum_eq_zero fun d hd => by rw [this d (mem_range.1 hd)]; ring, Real.sqrt_zero]
  have hE : ExactGmres (petscX (r + 1) fun e => ∑ i ∈ range (r + 1), a i * kry op pre b i e) op pre C.full.size b := by
    refine ⟨fun k db _ _ _ => ?_, fun k db out _ _ _ h hr => ?_, fun k db out _ _ _ h _ a' => ?_⟩
    · simp only [petscX]; split
      · exact ⟨_, rfl⟩
      · exact ⟨_, rfl⟩
    · simp only [petscX] at h
      split at h <;> (cases h; norm_num at hr)
    · simp only [petscX] at h
      split at h
      · cases h
        rw [hz]
        exact Real.sqrt_nonneg _
      · cases h
        simp
  refine ⟨ops, A₁, A₂, _, _, op, pre, _, hA, hs, sF, sS, hop, hpre, hE, hret _ hE (by simp [petscX]) _ none _ true none _
    ⟨by norm_num [orDefault], by norm_num [orDefault], by norm_num [orDefault], by positivity⟩ (fun _ _ => rfl) (by omega) le_rfl⟩

end

/-- C119 for the configurations of the three scripts, and `C119_few_steps` through the first two. -/
example {k : ℕ} (h1 : 1 ≤ k) (h3 : k ≤ 3) (ind : msh.Broken) (b : Vec) : ∃ B om', construct LinearMap.id
    (orderArgs k 32 msh.sol1 msh.dsol1) (Script.d1.dataDomain ind) = (.ok B, om') ∧ Uses (cfgK k B) b := by
  obtain ⟨B, om', hb, hC, hB⟩ := builtK h3 ind
  have hD := order_data (C := cfgK k B) hb (by norm_num) h1 hB
  have hind : msh.Nonneg (cfgK k B).D.ind := fun i _ y _ => by rw [cfgK_ind hb hB, map_zero]; exact le_rfl
  exact ⟨B, om', hb, uses hC (by rw [hD.N]; norm_num) hD.wp hD.fw
    (C118_solve_1d (C := cfgK k B) (N := 32) hb (by norm_num) h1 (by norm_num) hC hB rfl hind (msh.pk_primal k).le (msh.pk_indep k))
    (C119_solve_1d (C := cfgK k B) (N := 32) hb (by norm_num) h1 (by norm_num) hC hB rfl hind (msh.pk_primal k).le (msh.pk_indep k)) b⟩

example (ind : square.Broken) (b : Vec) : ∃ B om', construct LinearMap.id (Script.d2.args square.sol2 square.dsol2) (Script.d2.dataDomain ind)
      = (.ok B, om') ∧ Uses (cfgSq B) b := by
  obtain ⟨B, om', hb, hC, hB⟩ := builtSq ind
  have hD : TwoDData (cfgSq B) 8 := twoD_data (N := 8) hb (by norm_num) hB
  exact ⟨B, om', hb, uses hC (by rw [hD.N]; norm_num) hD.wp hD.fw
    (C118_solve_2d (C := cfgSq B) (N := 8) hb (by norm_num) hC hB rfl (nonnegSq hb hB) (square.cg_primal 3 3).le
      (square.cg_indep 3 3) square_bounds ((mul_le_mul_of_nonneg_right square_size (by positivity)).trans (by norm_num)))
    (C119_solve_2d (C := cfgSq B) (N := 8) hb (by norm_num) hC hB rfl (nonnegSq hb hB) (square.cg_primal 3 3).le
      (square.cg_indep 3 3) square_bounds ((mul_le_mul_of_nonneg_right square_size (by positivity)).trans (by norm_num))) b⟩

example (ind : box.Broken) (b : Vec) : ∃ B om', construct LinearMap.id (Script.d3.args box.sol3 box.dsol3) (Script.d3.dataDomain ind)
      = (.ok B, om') ∧ Uses (cfgBox B) b := by
  obtain ⟨B, om', hb, hC, hB⟩ := builtBox ind
  have hD : ThreeDData (cfgBox B) 8 := threeD_data (N := 8) hb (by norm_num) hB
  have hind : (cfgBox B).D.ind = 0 := by
    obtain ⟨b, -, e⟩ := construct_facts hb
    rw [hB.D, e]
    simp [builtOf, Script.dataDomain, Script.fitted, Script.fitted3, nxs, refLvl]
  have hnn : box.Nonneg (cfgBox B).D.ind := fun I y _ => by rw [hind]; exact le_rfl
  exact ⟨B, om', hb, uses hC (by rw [hD.N]; norm_num) hD.wp hD.fw
    (C118_solve_3d (C := cfgBox B) (N := 8) hb (by norm_num) (by norm_num) hC hB rfl hnn (q1_primal _) (q1_indep _))
    (C119_solve_3d (C := cfgBox B) (N := 8) hb (by norm_num) (by norm_num) hC hB rfl hnn (q1_primal _) (q1_indep _)) b⟩

end Example
end Dxss
