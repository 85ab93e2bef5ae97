import Verif.Props.Noise
import Verif.Props.Wave2Error
import Verif.Props.Wave3Error

/-!
# Property C117, continued: noisy data everywhere in two and three dimensions
-/

namespace Dxss
open Finset Real

section
variable {V : Type} [AddCommGroup V] [Module ℝ V]

/-- C117 with data everywhere: the system for exact data has exactly one solution, and if its reported error is at most `β`, then the errors
reported for a solution with noisy data are at most `β + 14·√N·δ`. -/
theorem C117_everywhere {interp : V →ₗ[ℝ] V} {a : Args V} {sol₂ : ℝ → V} {om om' om₂' : DataDomain V} {B B₂ : Built V}
    (hb : construct interp a om = (.ok B, om')) (hb₂ : construct interp { a with sol := sol₂ } om = (.ok B₂, om₂'))
    (haN : 0 < a.N) (haT : 0 < a.T)
    {C C₂ : Cfg V} (hC : C.Ok) (hB : C.OfBuilt B) (hC₂ : C₂.Ok) (hB₂ : C₂.OfBuilt B₂) (hSS : C₂.S = C.S)
    (hfe : C₂.fe = C.fe) (hL : C₂.full = C.full) (hS : C.S.Psd C.D.ind) (hd : C.S.Definite) (hp : C.D.Positive) (hwp : C.D.wellPosed = false)
    (hi : C.fe.Indep) (hdata : 0 < C.D.gData) (hlam : 0 ≤ C.D.lam) (hom : ∀ u, C.S.omega C.D.ind u u = C.S.mass u u) {δ β : ℝ} (hδ0 : 0 ≤ δ)
    (hK : 1 / C.D.gData * ((C.D.q + 1) ^ 2 / C.D.dt) * ((1e-20) ^ 2 * (C.D.qstar + 1) ^ 2) ≤ 1e-2 * (C.D.gDual * C.D.dt))
    (hδ : ∀ t, 0 ≤ t → t ≤ a.T → C.S.norm (a.sol t - sol₂ t) ≤ δ)
    (hβ : ∀ (w₀ : World V), w₀.Fresh → ∀ (r : Ref) (w₁ : World V), scriptSetup C w₀ = (.ok r, w₁) → ∀ A : Mat, C.Returns false A →
      ∀ (z₀ : World V), z₀.Fresh → ∀ (ops : List (Op V)) (x : InVec),
      (∀ d < A.size, A.mult ((runOps C ops z₀).heap x.ref) d = w₁.heap r d) →
      ∀ (rep : ErrDict) (z₁ : World V), measuredErrors C x.ref (runOps C ops z₀) = (.ok rep, z₁) → rep.linfU ≤ β)
    {v₀ : World V} (g₀ : v₀.Fresh) {r : Ref} {v₁ : World V} (h : scriptSetup C₂ v₀ = (.ok r, v₁)) {A : Mat} (hA : C₂.Returns false A)
    {z₀ : World V} (hz : z₀.Fresh) (ops : List (Op V)) (x : InVec)
    (hx : ∀ d < A.size, A.mult ((runOps C ops z₀).heap x.ref) d = v₁.heap r d)
    {rep : ErrDict} {z₁ : World V} (hrep : measuredErrors C x.ref (runOps C ops z₀) = (.ok rep, z₁)) :
    rep.l2T ≤ β + 14 * √C.D.N * δ ∧ rep.linfU ≤ β + 14 * √C.D.N * δ := by
  have hdt := hp.dt
  have hNpos : 0 < C.D.N := by
    obtain ⟨b, -, eB⟩ := construct_facts hb
    rw [hB.D, eB]
    change 0 < a.N.toNat
    omega
  have hdet : C.Determined (1 / C.D.gData) := by
    intro u _
    have p := hS.pen u; have g := hS.ghost u
    have hpp := hp.primal
    have : 0 ≤ C.D.gPrimal * (C.D.lam * C.S.pen u u + C.S.ghost u u) := by positivity
    rw [hom, one_div, ← div_eq_inv_mul, le_div_iff₀ hdata]
    linarith
  have hc0 : 0 ≤ 1 / C.D.gData := by positivity
  have hMe : C.Meas := Meas.of_construct hb haN haT ⟨hB.D, hB.T, hB.dsol, hB.samples, hB.ptsHo, hB.wsHo⟩
  obtain ⟨w₁, hs, -⟩ := scriptSetup_run (C := C) (Example.freshWorld_fresh fun _ => 0) (Example.freshWorld_noFail _)
  obtain ⟨a₀, opsA, a₁, ha₀, hopsA, hA'⟩ := Example.returns C false
  have hgd : 0 < C.D.gDual * C.D.dt := mul_pos hp.dual hdt
  obtain ⟨y, hy, -⟩ := (C68_observable_unique_solution hC hS hd hp hi (C68_full_data_observe hC hS hd hp hc0 hdet hNpos)
    (lt_of_le_of_lt hK (by linarith)) ha₀ opsA hopsA hA').2 (w₁.heap .rhs)
  have hyw : (runOps C [.setupFE, .write 1 y] (Example.freshWorld fun _ => 0)).heap (InVec.user 1).ref = y :=
    runOps_write C [.setupFE] 1 y (Example.freshWorld fun _ => 0)
  obtain ⟨rep', y₁, hrep'⟩ := C42_returns hMe hS.mass (Example.freshWorld_fresh fun _ => 0) (Example.freshWorld_noFail _) [.write 1 y] (.user 1)
  have c1 := hβ _ (Example.freshWorld_fresh _) _ _ hs _ ⟨a₀, opsA, a₁, ha₀, hopsA, hA'⟩ _
    (Example.freshWorld_fresh _) _ (.user 1) (by rw [hyw]; exact hy) _ _ hrep'
  have c2 := C117_noise (sol₂ := sol₂) hb hb₂ haN haT hC hB hC₂ hB₂ hSS hfe hL hS hd hp hwp hc0 hdet hδ0 hK
    (fun t t0 t1 => by rw [hom]; exact (sqrt_le_left hδ0).1 (hδ t t0 t1))
    (Example.freshWorld_fresh _) g₀ hs h ⟨a₀, opsA, a₁, ha₀, hopsA, hA'⟩ hA (Example.freshWorld_fresh _) hz _ ops (.user 1) x
    (by rw [hyw]; exact hy) hx hrep' hrep
  have c3 : √(192 * (1 / C.D.gData) * C.D.gData * C.D.N) * δ ≤ 14 * √C.D.N * δ := by
    refine mul_le_mul_of_nonneg_right ?_ hδ0
    have e : 192 * (1 / C.D.gData) * C.D.gData * C.D.N = 192 * (C.D.N:ℝ) := by field_simp
    have hN0 : (0:ℝ) ≤ C.D.N := Nat.cast_nonneg _
    rw [e, sqrt_le_left (by positivity), mul_pow, sq_sqrt hN0]
    nlinarith
  have key : rep.linfU ≤ β + 14 * √C.D.N * δ := by
    have := (abs_le.1 c2).1
    linarith
  exact ⟨(C42_final_le_max hMe (C42_any_history hMe hS.mass hz ops x hrep)).trans key, key⟩

end

section
variable {m : Tri} {hm hM δ R : ℝ} {N : ℤ} {interp : m.Broken →ₗ[ℝ] m.Broken} {om' om₂' : DataDomain m.Broken}
  {B B₂ : Built m.Broken} {C C₂ : Cfg m.Broken} {sol₂ : ℝ → m.Broken}

/-- C117: solve_2d.py as in C112, but with measurements `sol₂` which differ from the wave by at most `ε` (in the norm of L², at every time).  If a
vector solves the linear system for these data, the error against the wave is at most the bound of C112 plus `14·√N·ε`. -/
theorem C117_solve_2d (hb : construct interp { Script.d2.args m.sol2 m.dsol2 with N := N } ⟨m.space.one, false⟩ = (.ok B, om'))
    (hb₂ : construct interp { Script.d2.args sol₂ m.dsol2 with N := N } ⟨m.space.one, false⟩ = (.ok B₂, om₂'))
    (hN : 100 ≤ N) (hsize : (N : ℝ) ≤ 1e13) (ht : m.Tiles) (hsq : m.BdSquare) (hbd : m.Bounds hm hM δ R) {ρ : ℝ} (hρ : hM ^ 2 ≤ ρ * δ)
    (hρ1 : 1 ≤ ρ) (hρ2 : ρ ≤ 1000) (hh : hM ≤ 1 / 100) (hC : C.Ok) (hB : C.OfBuilt B) (hC₂ : C₂.Ok) (hB₂ : C₂.OfBuilt B₂)
    (hSS : C₂.S = C.S) (hff : C₂.fe = C.fe) (hL : C₂.full = C.full) (hS : C.S = m.space) (hfe : C.fe = m.cg 3 3) {ε : ℝ} (hε0 : 0 ≤ ε)
    (hε : ∀ t, 0 ≤ t → t ≤ 1 → m.space.norm (m.sol2 t - sol₂ t) ≤ ε)
    {v₀ : World m.Broken} (g₀ : v₀.Fresh) {r : Ref} {v₁ : World m.Broken}
    (h : scriptSetup C₂ v₀ = (.ok r, v₁)) {A : Mat} (hA : C₂.Returns false A)
    {z₀ : World m.Broken} (hz : z₀.Fresh) (ops : List (Op m.Broken)) (x : InVec)
    (hx : ∀ d < A.size, A.mult ((runOps C ops z₀).heap x.ref) d = v₁.heap r d)
    {rep : ErrDict} {z₁ : World m.Broken} (hrep : measuredErrors C x.ref (runOps C ops z₀) = (.ok rep, z₁)) :
    let bound := √(30 / N + (205 * ρ ^ 2 + 27 * ρ ^ 3) * (N * hM ^ 2) + 2.5e-7 * N) + 2 / N ^ 2 + 28 * hM ^ 2 + 14 * √N * ε
    rep.l2T ≤ bound ∧ rep.linfU ≤ bound := by
  intro bound
  have hN0 : 0 < N := by omega
  have hNR : (0:ℝ) < N := by exact_mod_cast hN0
  have hD := twoD_data hb hN0 hB
  obtain ⟨b, -, eB⟩ := construct_facts hb
  have hdata : C.D.gData = 1e4 := by rw [hB.D, eB]; rfl
  have hind : C.D.ind = m.space.one := by rw [hB.D, eB]; simp [builtOf]
  have hDN : (C.D.N : ℝ) = N := by
    rw [hD.N]
    exact_mod_cast Int.toNat_of_nonneg (by omega : 0 ≤ N)
  have key := C117_everywhere (sol₂ := sol₂) hb hb₂ hN0 (by norm_num [Script.args, Script.T]) hC hB hC₂ hB₂ hSS hff hL
    (by rw [hS, hind]; exact m.space_psd fun K s t _ _ _ => zero_le_one) (hS ▸ m.space_definite) hD.pos hD.wp (hfe ▸ m.cg_indep 3 3)
    (by rw [hdata]; norm_num) (by rw [hD.lam]; norm_num) (fun u => by rw [hS, hind, Tri.omega_one]) hε0 (by
      rw [hdata, hD.dt, hD.q, hD.qstar, hD.dual, one_mul, mul_one_div, le_div_iff₀ hNR]
      have e : 1 / 1e4 * ((((3:ℕ):ℝ) + 1) ^ 2 / (1 / N)) * ((1e-20) ^ 2 * (((3:ℕ):ℝ) + 1) ^ 2) * N = 2.56e-42 * (N:ℝ) ^ 2 := by
        field_simp; norm_num
      rw [e]
      have := pow_le_pow_left₀ hNR.le hsize 2
      norm_num at this ⊢
      linarith)
    (fun t t0 t1 => by rw [hS]; exact hε t t0 (by simpa [Script.args, Script.T] using t1))
    (fun _ h₀ _ _ hs _ hA _ hz _ _ hx _ _ hrep => (C112_error hb hN hsize ht hsq hbd hρ hρ1 hρ2 hh hC hB hS hfe h₀ hs hA hz _ _ hx hrep).2)
    g₀ h hA hz ops x hx hrep
  rw [hDN] at key
  exact key

end

section
variable {k : ℕ} {hk : 0 < k} {N : ℤ} {interp : (Grid.unit 2 k hk).Broken →ₗ[ℝ] (Grid.unit 2 k hk).Broken}
  {om' om₂' : DataDomain (Grid.unit 2 k hk).Broken} {B B₂ : Built (Grid.unit 2 k hk).Broken} {C C₂ : Cfg (Grid.unit 2 k hk).Broken}
  {sol₂ : ℝ → (Grid.unit 2 k hk).Broken}

/-- C117: solve_3d.py as in C105, but with measurements `sol₂` which differ from the wave by at most `δ` (in the norm of L², at every time). -/
theorem C117_solve_3d (hb : construct interp { Script.d3.args (Grid.unit 2 k hk).sol3 (Grid.unit 2 k hk).dsol3 with N := N }
      ⟨(Grid.unit 2 k hk).space.one, false⟩ = (.ok B, om'))
    (hb₂ : construct interp { Script.d3.args sol₂ (Grid.unit 2 k hk).dsol3 with N := N }
      ⟨(Grid.unit 2 k hk).space.one, false⟩ = (.ok B₂, om₂'))
    (hN : 100 ≤ N) (hNk : N ≤ k) (hsize : (N : ℝ) ≤ 1e13) (hC : C.Ok) (hB : C.OfBuilt B) (hC₂ : C₂.Ok) (hB₂ : C₂.OfBuilt B₂)
    (hSS : C₂.S = C.S) (hff : C₂.fe = C.fe) (hL : C₂.full = C.full)
    (hS : C.S = (Grid.unit 2 k hk).space) (hfe : C.fe = (Grid.unit 2 k hk).q1) {δ : ℝ} (hδ0 : 0 ≤ δ)
    (hδ : ∀ t, 0 ≤ t → t ≤ 1 / 2 → (Grid.unit 2 k hk).space.norm ((Grid.unit 2 k hk).sol3 t - sol₂ t) ≤ δ)
    {v₀ : World (Grid.unit 2 k hk).Broken} (g₀ : v₀.Fresh) {r : Ref} {v₁ : World (Grid.unit 2 k hk).Broken}
    (h : scriptSetup C₂ v₀ = (.ok r, v₁)) {A : Mat} (hA : C₂.Returns false A)
    {z₀ : World (Grid.unit 2 k hk).Broken} (hz : z₀.Fresh) (ops : List (Op (Grid.unit 2 k hk).Broken)) (x : InVec)
    (hx : ∀ d < A.size, A.mult ((runOps C ops z₀).heap x.ref) d = v₁.heap r d)
    {rep : ErrDict} {z₁ : World (Grid.unit 2 k hk).Broken} (hrep : measuredErrors C x.ref (runOps C ops z₀) = (.ok rep, z₁)) :
    let bound := √(21 / N + 2.5e-7 * N) + 6 / N ^ 2 + 14 * √N * δ
    rep.l2T ≤ bound ∧ rep.linfU ≤ bound := by
  intro bound
  have hN0 : 0 < N := by omega
  have hNR : (0:ℝ) < N := by exact_mod_cast hN0
  have hD := threeD_data hb hN0 hB
  obtain ⟨b, -, eB⟩ := construct_facts hb
  have hdata : C.D.gData = 1e4 := by rw [hB.D, eB]; rfl
  have hind : C.D.ind = (Grid.unit 2 k hk).space.one := by rw [hB.D, eB]; simp [builtOf]
  have hDN : (C.D.N : ℝ) = N := by
    rw [hD.N]
    exact_mod_cast Int.toNat_of_nonneg (by omega : 0 ≤ N)
  have key := C117_everywhere (sol₂ := sol₂) hb hb₂ hN0 (by norm_num [Script.args, Script.T]) hC hB hC₂ hB₂ hSS hff hL
    (by rw [hS, hind]; exact (Grid.unit 2 k hk).space_psd fun I y _ => zero_le_one) (hS ▸ (Grid.unit 2 k hk).space_definite) hD.pos hD.wp
    (hfe ▸ Grid.q1_indep _)
    (by rw [hdata]; norm_num) (by rw [hD.lam]; norm_num) (fun u => by rw [hS, hind, Grid.omega_unit]) hδ0 (by
      rw [hdata, hD.dt, hD.q, hD.qstar, hD.dual, one_mul]
      rw [show (1e-2:ℝ) * (1 / 2 / N) = 5e-3 / N by ring, le_div_iff₀ hNR]
      have e : 1 / 1e4 * ((((1:ℕ):ℝ) + 1) ^ 2 / (1 / 2 / N)) * ((1e-20) ^ 2 * (((1:ℕ):ℝ) + 1) ^ 2) * N = 3.2e-43 * (N:ℝ) ^ 2 := by
        field_simp; norm_num
      rw [e]
      have := pow_le_pow_left₀ hNR.le hsize 2
      norm_num at this ⊢
      linarith)
    (fun t t0 t1 => by rw [hS]; exact hδ t t0 (by simpa [Script.args, Script.T] using t1))
    (fun _ h₀ _ _ hs _ hA _ hz _ _ hx _ _ hrep => (C105_error hb hN hNk hsize hC hB hS hfe h₀ hs hA hz _ _ hx hrep).2)
    g₀ h hA hz ops x hx hrep
  rw [hDN] at key
  exact key

end

/-! ## Non-vacuity -/

namespace Example
open Tri Grid

/-- The system for the noisy data has a solution, and `measured_errors` of the object with the exact data returns for it. -/
theorem noisy {V : Type} [AddCommGroup V] [Module ℝ V] {C C₂ : Cfg V} (hAA : stMatOf C₂ false = stMatOf C false) (hMe : C.Meas)
    (hm : ∀ v, 0 ≤ C.S.mass v v) (hU : (stMatOf C false).UniquelySolvable) :
    ∃ v₁ A ops rep z₁, scriptSetup C₂ (freshWorld fun _ => 0) = (.ok .rhs, v₁) ∧ C₂.Returns false A ∧
      (∀ d < A.size, A.mult ((runOps C ops (freshWorld fun _ => 0)).heap (InVec.user 1).ref) d = v₁.heap .rhs d) ∧
      measuredErrors C (InVec.user 1).ref (runOps C ops (freshWorld fun _ => 0)) = (.ok rep, z₁) := by
  obtain ⟨v₁, h, -⟩ := scriptSetup_run (C := C₂) (freshWorld_fresh fun _ => 0) (freshWorld_noFail _)
  obtain ⟨x, hx, -⟩ := hU (v₁.heap .rhs)
  have hz : (runOps C [.setupFE, .write 1 x] (freshWorld fun _ => 0)).heap (InVec.user 1).ref = x :=
    runOps_write C [.setupFE] 1 x (freshWorld fun _ => 0)
  obtain ⟨rep, z₁, hr⟩ := C42_returns hMe hm (freshWorld_fresh fun _ => 0) (freshWorld_noFail fun _ => 0) [.write 1 x] (.user 1)
  exact ⟨v₁, _, _, rep, z₁, h, returns _ false, by rw [hz, hAA]; exact hx, hr⟩

theorem built2N_of {m : Tri} {N : ℤ} (hN : 0 < N) (sol : ℝ → m.Broken) (ind : m.Broken) (f : Bool) : ∃ B om', construct LinearMap.id
      { Script.d2.args sol m.dsol2 with N := N } ⟨ind, f⟩ = (.ok B, om') ∧ (cfg2N N B).Ok ∧ (cfg2N N B).OfBuilt B := by
  obtain ⟨b, -, e⟩ := construct_run (interp := LinearMap.id)
    (a := { Script.d2.args sol m.dsol2 with N := N }) (om := ⟨ind, f⟩) hN.ne' (Script.d2.supported sol m.dsol2)
  have hdt : (builtOf LinearMap.id { Script.d2.args sol m.dsol2 with N := N } ⟨ind, f⟩ b).D.dt = 1 / N := by
    simp [builtOf, Script.args, Script.T]
  have hNR : (N:ℝ) ≠ 0 := by exact_mod_cast hN.ne'
  refine ⟨_, _, e, ?_, ?_⟩
  · refine ⟨⟨getElmatTime_ok ?_ ?_, ?_⟩, stdSpace_ok _ _, rfl, stdSpace_ok _ _, rfl, stdSpace_ok _ _, rfl,
      stdSpace_ok _ _, rfl⟩
    · simp [cfg2N, builtOf, Script.args, Script.otime, Script.order]
    · simp [cfg2N, builtOf, Script.args, Script.otime, Script.order]
    · rw [cfg2N, hdt]; exact div_ne_zero (by norm_num) hNR
  · constructor <;> simp [cfg2N, builtOf, QuadRule.currentPts, QuadRule.tWeights, gaussRadau]

/-- C117 for solve_2d.py with 10000 slabs, `2 · 300000²` triangles and any measurement error of at most `1e-6`: everything exists, and the error
over time is at most 0.09 (the wave has norm 1/2). -/
example {k : ℕ} {hk : 0 < k} (e : k = 300000) (noise : ℝ → (squares k hk).Broken)
    (hnoise : ∀ t, 0 ≤ t → t ≤ 1 → (squares k hk).space.norm (noise t) ≤ 1e-6) : ∃ B om' B₂ om₂',
    construct LinearMap.id { Script.d2.args (squares k hk).sol2 (squares k hk).dsol2 with N := 10000 } ⟨(squares k hk).space.one, false⟩
      = (.ok B, om') ∧
    construct LinearMap.id { Script.d2.args (fun t => (squares k hk).sol2 t - noise t) (squares k hk).dsol2 with N := 10000 }
      ⟨(squares k hk).space.one, false⟩ = (.ok B₂, om₂') ∧
    ∃ v₁ A ops rep z₁, scriptSetup (cfg2N 10000 B₂) (freshWorld fun _ => 0) = (.ok .rhs, v₁) ∧ (cfg2N 10000 B₂).Returns false A ∧
      (∀ d < A.size, A.mult ((runOps (cfg2N 10000 B) ops (freshWorld fun _ => 0)).heap (InVec.user 1).ref) d = v₁.heap .rhs d) ∧
      measuredErrors (cfg2N 10000 B) (InVec.user 1).ref (runOps (cfg2N 10000 B) ops (freshWorld fun _ => 0)) = (.ok rep, z₁) ∧
      rep.linfU ≤ 0.09 := by
  obtain ⟨B, om', hb, hC, hB⟩ := built2N_of (m := squares k hk) (N := 10000) (by norm_num) (squares k hk).sol2 (squares k hk).space.one false
  obtain ⟨B₂, om₂', hb₂, hC₂, hB₂⟩ := built2N_of (m := squares k hk) (N := 10000) (by norm_num) (fun t => (squares k hk).sol2 t - noise t)
    (squares k hk).space.one false
  refine ⟨B, om', B₂, om₂', hb, hb₂, ?_⟩
  have hAA : stMatOf (cfg2N 10000 B₂) false = stMatOf (cfg2N 10000 B) false := by
    obtain ⟨b, i1, e⟩ := construct_facts hb
    obtain ⟨b₂, i2, e₂⟩ := construct_facts hb₂
    obtain rfl : b = b₂ := Option.some.inj (i1.symm.trans i2)
    simp only [cfg2N, stMatOf, e, e₂, builtOf]
    rfl
  have hMe : (cfg2N 10000 B).Meas := Meas.of_construct hb (by norm_num) (by norm_num [Script.args, Script.T])
    ⟨hB.D, hB.T, hB.dsol, hB.samples, hB.ptsHo, hB.wsHo⟩
  obtain ⟨v₀, ops, w₁, g₀, hops, hA'⟩ := returns (cfg2N 10000 B) false
  obtain ⟨v₁, A, ops, rep, z₁, h, hA, hx, hr⟩ := noisy hAA hMe ((squares k hk).space_psd (i := 0) fun K s t _ _ _ => le_rfl).mass
    (C112_unique (C := cfg2N 10000 B) hb (by norm_num) (by norm_num) hC hB rfl ((squares k hk).cg_indep 3 3) g₀ ops hops hA').2
  refine ⟨v₁, A, ops, rep, z₁, h, hA, hx, hr, ?_⟩
  have hkR : (k:ℝ) = 300000 := by exact_mod_cast e
  have s2 : √2 ≤ (1.41422:ℝ) := by rw [sqrt_le_left (by norm_num)]; norm_num
  refine (C117_solve_2d (C := cfg2N 10000 B) (C₂ := cfg2N 10000 B₂) (ρ := 2) hb hb₂ (by norm_num) (by norm_num) squares_tiles squares_bd
    squares_bounds (by rw [mul_pow, sq_sqrt (by norm_num)]; exact le_of_eq (by ring)) (by norm_num) (by norm_num)
    (by rw [hkR]; norm_num at s2 ⊢; linarith) hC hB hC₂ hB₂ rfl rfl rfl rfl rfl (ε := 1e-6) (by norm_num)
    (fun t t0 t1 => by rw [sub_sub_cancel]; exact hnoise t t0 t1) (freshWorld_fresh _) h hA (freshWorld_fresh _) ops (.user 1) hx hr).2.trans ?_
  have a3 : √((10000:ℤ):ℝ) = 100 := by
    rw [show (((10000:ℤ):ℝ)) = 100 ^ 2 by norm_num, sqrt_sq (by norm_num)]
  rw [a3, hkR, mul_pow, sq_sqrt (by norm_num)]
  have a1 : √(30 / ((10000:ℤ):ℝ) + (205 * 2 ^ 2 + 27 * 2 ^ 3) * (((10000:ℤ):ℝ) * (2 * (1 / 300000) ^ 2)) + 2.5e-7 * ((10000:ℤ):ℝ)) ≤ 0.08 := by
    rw [sqrt_le_left (by norm_num)]; norm_num
  generalize √(30 / ((10000:ℤ):ℝ) + (205 * 2 ^ 2 + 27 * 2 ^ 3) * (((10000:ℤ):ℝ) * (2 * (1 / 300000) ^ 2)) + 2.5e-7 * ((10000:ℤ):ℝ)) = X at a1 ⊢
  norm_num at a1 ⊢
  linarith

theorem built3N_of {k : ℕ} {hk : 0 < k} {N : ℤ} (hN : 0 < N) (sol : ℝ → (Grid.unit 2 k hk).Broken) (ind : (Grid.unit 2 k hk).Broken) :
    ∃ B om', construct LinearMap.id { Script.d3.args sol (Grid.unit 2 k hk).dsol3 with N := N } ⟨ind, false⟩ = (.ok B, om') ∧
    (cfg3N N B).Ok ∧ (cfg3N N B).OfBuilt B := by
  obtain ⟨b, -, e⟩ := construct_run (interp := LinearMap.id)
    (a := { Script.d3.args sol (Grid.unit 2 k hk).dsol3 with N := N }) (om := ⟨ind, false⟩) hN.ne'
    (Script.d3.supported sol (Grid.unit 2 k hk).dsol3)
  have hdt : (builtOf LinearMap.id { Script.d3.args sol (Grid.unit 2 k hk).dsol3 with N := N } ⟨ind, false⟩ b).D.dt = 1 / 2 / N := by
    simp [builtOf, Script.args, Script.T]
  have hNR : (N:ℝ) ≠ 0 := by exact_mod_cast hN.ne'
  refine ⟨_, _, e, ?_, ?_⟩
  · refine ⟨⟨getElmatTime_ok ?_ ?_, ?_⟩, stdSpace_ok _ _, rfl, stdSpace_ok _ _, rfl, stdSpace_ok _ _, rfl,
      stdSpace_ok _ _, rfl⟩
    · simp [cfg3N, builtOf, Script.args, Script.otime, Script.order]
    · simp [cfg3N, builtOf, Script.args, Script.otime, Script.order]
    · rw [cfg3N, hdt]; exact div_ne_zero (by norm_num) hNR
  · constructor <;> simp [cfg3N, builtOf, QuadRule.currentPts, QuadRule.tWeights, gaussRadau]

/-- C117 for solve_3d.py with 1000 slabs, 1000 cells in each direction and any measurement error of at most `1e-6`: everything exists, and the
error over time is at most 0.15 (the wave has norm 0.35). -/
example {k : ℕ} {hk : 0 < k} (e : k = 1000) (noise : ℝ → (Grid.unit 2 k hk).Broken)
    (hnoise : ∀ t, 0 ≤ t → t ≤ 1 / 2 → (Grid.unit 2 k hk).space.norm (noise t) ≤ 1e-6) : ∃ B om' B₂ om₂',
    construct LinearMap.id { Script.d3.args (Grid.unit 2 k hk).sol3 (Grid.unit 2 k hk).dsol3 with N := 1000 }
      ⟨(Grid.unit 2 k hk).space.one, false⟩ = (.ok B, om') ∧
    construct LinearMap.id { Script.d3.args (fun t => (Grid.unit 2 k hk).sol3 t - noise t) (Grid.unit 2 k hk).dsol3 with N := 1000 }
      ⟨(Grid.unit 2 k hk).space.one, false⟩ = (.ok B₂, om₂') ∧
    ∃ v₁ A ops rep z₁, scriptSetup (cfg3N 1000 B₂) (freshWorld fun _ => 0) = (.ok .rhs, v₁) ∧ (cfg3N 1000 B₂).Returns false A ∧
      (∀ d < A.size, A.mult ((runOps (cfg3N 1000 B) ops (freshWorld fun _ => 0)).heap (InVec.user 1).ref) d = v₁.heap .rhs d) ∧
      measuredErrors (cfg3N 1000 B) (InVec.user 1).ref (runOps (cfg3N 1000 B) ops (freshWorld fun _ => 0)) = (.ok rep, z₁) ∧
      rep.linfU ≤ 0.15 := by
  obtain ⟨B, om', hb, hC, hB⟩ := built3N_of (hk := hk) (N := 1000) (by norm_num) (Grid.unit 2 k hk).sol3 (Grid.unit 2 k hk).space.one
  obtain ⟨B₂, om₂', hb₂, hC₂, hB₂⟩ := built3N_of (N := 1000) (by norm_num) (fun t => (Grid.unit 2 k hk).sol3 t - noise t)
    (Grid.unit 2 k hk).space.one
  refine ⟨B, om', B₂, om₂', hb, hb₂, ?_⟩
  have hAA : stMatOf (cfg3N 1000 B₂) false = stMatOf (cfg3N 1000 B) false := by
    obtain ⟨b, i1, e⟩ := construct_facts hb
    obtain ⟨b₂, i2, e₂⟩ := construct_facts hb₂
    obtain rfl : b = b₂ := Option.some.inj (i1.symm.trans i2)
    simp only [cfg3N, stMatOf, e, e₂, builtOf]
    rfl
  have hind : (cfg3N 1000 B).D.ind = (Grid.unit 2 k hk).space.one := by
    obtain ⟨b, -, e⟩ := construct_facts hb
    rw [hB.D, e]
    simp [builtOf]
  have h1 : (Grid.unit 2 k hk).Nonneg (cfg3N 1000 B).D.ind := by
    rw [hind]; exact fun I y _ => zero_le_one
  have hkR : (k:ℝ) = 1000 := by exact_mod_cast e
  have hMe : (cfg3N 1000 B).Meas := Meas.of_construct hb (by norm_num) (by norm_num [Script.args, Script.T])
    ⟨hB.D, hB.T, hB.dsol, hB.samples, hB.ptsHo, hB.wsHo⟩
  obtain ⟨v₀, ops, w₁, g₀, hops, hA'⟩ := returns (cfg3N 1000 B) false
  obtain ⟨v₁, A, ops, rep, z₁, h, hA, hx, hr⟩ := noisy hAA hMe ((Grid.unit 2 k hk).space_psd h1).mass
    (C102_solve_3d (C := cfg3N 1000 B) hb (by norm_num) (by rw [hkR]; norm_num) hC hB rfl h1 (q1_primal _) (q1_indep _) g₀ ops hops hA').2
  refine ⟨v₁, A, ops, rep, z₁, h, hA, hx, hr, ?_⟩
  refine (C117_solve_3d (C := cfg3N 1000 B) (C₂ := cfg3N 1000 B₂) hb hb₂ (by norm_num) (by rw [e]; norm_num) (by norm_num)
    hC hB hC₂ hB₂ rfl rfl rfl rfl rfl (δ := 1e-6) (by norm_num)
    (fun t t0 t1 => by rw [sub_sub_cancel]; exact hnoise t t0 t1) (freshWorld_fresh _) h hA (freshWorld_fresh _) ops (.user 1) hx hr).2.trans ?_
  have a3 : √((1000:ℤ):ℝ) ≤ 32 := by
    rw [sqrt_le_left (by norm_num)]; norm_num
  have a1 : √(21 / ((1000:ℤ):ℝ) + 2.5e-7 * ((1000:ℤ):ℝ)) ≤ 0.147 := by
    rw [sqrt_le_left (by norm_num)]; norm_num
  generalize √(21 / ((1000:ℤ):ℝ) + 2.5e-7 * ((1000:ℤ):ℝ)) = X at a1 ⊢
  generalize √((1000:ℤ):ℝ) = Y at a3 ⊢
  norm_num at a1 ⊢
  linarith

end Example
end Dxss
