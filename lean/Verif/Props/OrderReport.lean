import Verif.Props.OrderBound

/-!
# Property C108: solve_1d.py with elements of higher order

C93 for `ORDER` 1, 2 and 3 (solve_1d.py:65-69): raising the order does not bring the data back.
-/

namespace Dxss
open Finset

/-- The errors of the zero function, up to `1e-3` (function) and `2e-2` (time derivative). -/
def CloseToZero (r : ErrDict) : Prop :=
  |r.l2T - √(1 / 2)| ≤ 1e-3 ∧ |r.linfU - √(1 / 2)| ≤ 1e-3 ∧ |r.linfUt - √2 * Real.pi| ≤ 2e-2 ∧ |r.l2l2Ut - Real.pi| ≤ 2e-2

section
variable {n : ℕ} {hn : 0 < n} {interp : (Mesh1.unit n hn).Broken →ₗ[ℝ] (Mesh1.unit n hn).Broken}
  {ind : (Mesh1.unit n hn).Broken} {om' : DataDomain (Mesh1.unit n hn).Broken} {B : Built (Mesh1.unit n hn).Broken}
  {C : Cfg (Mesh1.unit n hn).Broken} {k : ℕ}

/-- The solution of the linear system is negligible. -/
theorem small_of_solution (hb : construct interp (orderArgs k 32 (Mesh1.unit n hn).sol1 (Mesh1.unit n hn).dsol1)
      (Script.d1.dataDomain ind) = (.ok B, om')) (hk : 1 ≤ k) (hlow : 32 ≤ n) (hsize : n ≤ 1000) (hC : C.Ok) (hB : C.OfBuilt B)
    (hS : C.S = (Mesh1.unit n hn).space) (hfe : C.fe.primal ≤ (Mesh1.unit n hn).lagrange k)
    {w₀ : World (Mesh1.unit n hn).Broken} (h₀ : w₀.Fresh) {r : Ref} {w₁ : World (Mesh1.unit n hn).Broken}
    (h : scriptSetup C w₀ = (.ok r, w₁)) {x : Vec} (hx : ∀ d < C.full.size, (stMatOf C false).mult x d = w₁.heap r d) :
    ∃ cd : ℝ, 0 ≤ cd ∧ cd ≤ 2.8e24 ∧ C.S.Psd C.D.ind ∧
      ∑ j ∈ range C.D.N, slabSq C.S.mass C.D.q C.D.dt j (C.full.field C.fe x 0 - C.full.field C.fe 0 0) ≤ cd * 2.56e-38 := by
  have hD : OrderData C k 32 := order_data hb (by norm_num) hk hB
  have hind : C.D.ind = 0 := by
    obtain ⟨b, -, e⟩ := construct_facts hb
    rw [hB.D, e]
    simp [builtOf, Script.dataDomain, Script.fitted]
  have hnn : (Mesh1.unit n hn).Nonneg C.D.ind := by
    intro i _ y _
    rw [hind, map_zero]; exact le_rfl
  have hPsd : C.S.Psd C.D.ind := hS ▸ (Mesh1.unit n hn).space_psd hnn
  have hdef : C.S.Definite := hS ▸ (Mesh1.unit n hn).space_definite
  have hN0 : 0 < C.D.N := by rw [hD.N]; norm_num
  have hlam : 0 < C.D.lam := by linarith [hD.lam]
  obtain ⟨b1, b2, b3⟩ := order_bound hD (by norm_num) hS hfe
  set cd := orderConst (54 * n ^ 2) ((1 / n) ^ 2) C.D.dt C.D.gPrimal with hcd
  have hcd0 : 0 ≤ cd := orderConst_nonneg (by positivity) (by positivity) hD.pos.dt hD.pos.primal
  have hcd1 : cd ≤ 2.8e24 := by
    have hn1 : (32:ℝ) ≤ n := by exact_mod_cast hlow
    have hn2 : (n:ℝ) ^ 2 ≤ 1e6 := by
      have : (n:ℝ) ≤ 1000 := by exact_mod_cast hsize
      nlinarith
    have h1 : ((32:ℤ) / n : ℝ) ^ 2 ≤ 1 := by
      refine pow_le_one₀ (by positivity) ?_
      rw [div_le_one (by linarith)]
      push_cast; exact hn1
    rw [b3]
    calc _ ≤ 378000 * (1e6:ℝ) * (13 + 340 * 1 + 54 * ((32:ℤ):ℝ) ^ 4 * (12528 + 115200 * 1)) := by gcongr
      _ ≤ _ := by norm_num
  have ho := C107_observable hC hPsd hdef hD.pos hlam hN0 (by positivity) (by positivity) b1 b2
  rw [← hcd] at ho
  have hone : C.S.mass C.S.one C.S.one = 1 := by
    rw [hS]
    refine ((Mesh1.unit n hn).mass_fn _ _).trans ?_
    have e := unit_length hn
    simp [e]
  have hq4 : (C.D.q : ℝ) + 1 ≤ 4 := by
    have : (C.D.q : ℝ) ≤ 3 := by exact_mod_cast hC.disc.hq
    linarith
  have hq2 : (C.D.qstar : ℝ) + 1 ≤ 2 := by
    have : (C.D.qstar : ℝ) ≤ 1 := by exact_mod_cast hD.qstar
    linarith
  have hdt : C.D.dt = 1 / 32 := by rw [hD.dt]; norm_num
  have hE := placeholder_energy hC hPsd hD.pos ho (by
    rw [hD.dual, hdt]
    calc cd * (((C.D.q:ℝ) + 1) ^ 2 / (1 / 32)) * ((1e-20) ^ 2 * (C.D.qstar + 1) ^ 2)
        ≤ 2.8e24 * (4 ^ 2 / (1 / 32)) * ((1e-20) ^ 2 * 2 ^ 2) := by gcongr
      _ ≤ _ := by norm_num) hN0 (fitted_energy hb (by simp [Script.dataDomain, Script.fitted]) rfl hC hB h₀ h x hx)
  rw [hone, hD.dual, hdt] at hE
  have hE' : Spec.energy C.S C.D C.D.ind (C.full.field C.fe x - C.full.field C.fe 0) ≤ 2.56e-38 := by
    rw [field_zero, sub_zero]
    refine hE.trans ?_
    calc _ ≤ 2 * ((1e-20:ℝ) ^ 2 * 2 ^ 2 / (1 * (1 / 32)) * 1) := by gcongr
      _ ≤ _ := by norm_num
  have hsum := (C107_control hC hPsd hD.pos (by positivity) (by positivity) b1 b2 x 0).trans (mul_le_mul_of_nonneg_left hE' hcd0)
  exact ⟨cd, hcd0, hcd1, hPsd, hsum⟩

theorem close_of_solution (hb : construct interp (orderArgs k 32 (Mesh1.unit n hn).sol1 (Mesh1.unit n hn).dsol1)
      (Script.d1.dataDomain ind) = (.ok B, om')) (hk : 1 ≤ k) (hlow : 32 ≤ n) (hsize : n ≤ 1000) (hC : C.Ok) (hB : C.OfBuilt B)
    (hS : C.S = (Mesh1.unit n hn).space) (hfe : C.fe.primal ≤ (Mesh1.unit n hn).lagrange k)
    {w₀ : World (Mesh1.unit n hn).Broken} (h₀ : w₀.Fresh) {r : Ref} {w₁ : World (Mesh1.unit n hn).Broken}
    (h : scriptSetup C w₀ = (.ok r, w₁)) {x : Vec} (hx : ∀ d < C.full.size, (stMatOf C false).mult x d = w₁.heap r d)
    {rep : ErrDict} (hr : Report C x rep) : CloseToZero rep := by
  have hD : OrderData C k 32 := order_data hb (by norm_num) hk hB
  obtain ⟨cd, hcd0, hcd1, hPsd, hsum⟩ := small_of_solution hb hk hlow hsize hC hB hS hfe h₀ h hx
  have hMe : C.Meas := Meas.of_construct hb (by norm_num [orderArgs]) (by norm_num [orderArgs, Script.args, Script.T])
    ⟨hB.D, hB.T, hB.dsol, hB.samples, hB.ptsHo, hB.wsHo⟩
  have hq4 : (C.D.q : ℝ) + 1 ≤ 4 := by
    have : (C.D.q : ℝ) ≤ 3 := by exact_mod_cast hC.disc.hq
    linarith
  have hdt : C.D.dt = 1 / 32 := by rw [hD.dt]; norm_num
  obtain ⟨d1, d2, d3, d4⟩ := report_diff_of hC hPsd hD.pos hsum hMe hr (report_zero hb hB hS)
  rw [hdt] at d1 d2 d3 d4
  have s1 : √(24 * ((C.D.q:ℝ) + 1) ^ 4 * cd / (1 / 32) * 2.56e-38) ≤ 1e-3 := by
    rw [Real.sqrt_le_left (by norm_num)]
    calc _ ≤ 24 * (4:ℝ) ^ 4 * 2.8e24 / (1 / 32) * 2.56e-38 := by gcongr
      _ ≤ _ := by norm_num
  have s2 : √(472 * ((C.D.q:ℝ) + 1) ^ 4 * cd / (1 / 32) ^ 3 * 2.56e-38) ≤ 2e-2 := by
    rw [Real.sqrt_le_left (by norm_num)]
    calc _ ≤ 472 * (4:ℝ) ^ 4 * 2.8e24 / (1 / 32) ^ 3 * 2.56e-38 := by gcongr
      _ ≤ _ := by norm_num
  have s3 : √(472 * ((C.D.q:ℝ) + 1) ^ 4 * cd / (1 / 32) ^ 2 * 2.56e-38) ≤ 2e-2 := by
    rw [Real.sqrt_le_left (by norm_num)]
    calc _ ≤ 472 * (4:ℝ) ^ 4 * 2.8e24 / (1 / 32) ^ 2 * 2.56e-38 := by gcongr
      _ ≤ _ := by norm_num
  exact ⟨d1.trans s1, d2.trans s1, d3.trans s2, d4.trans s3⟩

/-- C108, full statement: with `ORDER` 1, 2 or 3 the error solve_1d.py reports at the final time for the solution of its linear system is at
most half of the norm of the wave it reconstructs.  False: `Example.C108_violated`, for each of the three orders. -/
def C108_statement (k : ℕ) : Prop := ∀ (n : ℕ) (hn : 0 < n) (interp : (Mesh1.unit n hn).Broken →ₗ[ℝ] (Mesh1.unit n hn).Broken)
    (ind : (Mesh1.unit n hn).Broken) (B : Built (Mesh1.unit n hn).Broken) (om' : DataDomain (Mesh1.unit n hn).Broken)
    (C : Cfg (Mesh1.unit n hn).Broken), n = 160 →
    construct interp (orderArgs k 32 (Mesh1.unit n hn).sol1 (Mesh1.unit n hn).dsol1) (Script.d1.dataDomain ind) = (.ok B, om') →
    C.Ok → C.OfBuilt B → C.S = (Mesh1.unit n hn).space → C.fe = (Mesh1.unit n hn).pk k →
    ∀ (w₀ w₁ z₀ z₁ : World (Mesh1.unit n hn).Broken) (r : Ref) (A : Mat) (ops : List (Op (Mesh1.unit n hn).Broken)) (x : InVec)
      (rep : ErrDict), w₀.Fresh → scriptSetup C w₀ = (.ok r, w₁) → C.Returns false A → z₀.Fresh →
    (∀ d < A.size, A.mult ((runOps C ops z₀).heap x.ref) d = w₁.heap r d) →
    measuredErrors C x.ref (runOps C ops z₀) = (.ok rep, z₁) → rep.l2T ≤ 1 / 2 * C.S.norm (C.D.sol C.T)

/-- C108, what holds: the errors `measured_errors` reports for the solution of the linear system solve_1d.py sets up are those of the zero
function, with elements of every order. -/
theorem C108_solution_partial (hb : construct interp (orderArgs k 32 (Mesh1.unit n hn).sol1 (Mesh1.unit n hn).dsol1)
      (Script.d1.dataDomain ind) = (.ok B, om')) (hk : 1 ≤ k) (hlow : 32 ≤ n) (hsize : n ≤ 1000) (hC : C.Ok) (hB : C.OfBuilt B)
    (hS : C.S = (Mesh1.unit n hn).space) (hfe : C.fe.primal ≤ (Mesh1.unit n hn).lagrange k)
    {w₀ : World (Mesh1.unit n hn).Broken} (h₀ : w₀.Fresh) {r : Ref} {w₁ : World (Mesh1.unit n hn).Broken}
    (h : scriptSetup C w₀ = (.ok r, w₁)) {A : Mat} (hA : C.Returns false A)
    {z₀ : World (Mesh1.unit n hn).Broken} (hz : z₀.Fresh) (ops : List (Op (Mesh1.unit n hn).Broken)) (x : InVec)
    (hx : ∀ d < A.size, A.mult ((runOps C ops z₀).heap x.ref) d = w₁.heap r d)
    {rep : ErrDict} {z₁ : World (Mesh1.unit n hn).Broken} (hrep : measuredErrors C x.ref (runOps C ops z₀) = (.ok rep, z₁)) :
    CloseToZero rep := by
  have hMe : C.Meas := Meas.of_construct hb (by norm_num [orderArgs]) (by norm_num [orderArgs, Script.args, Script.T])
    ⟨hB.D, hB.T, hB.dsol, hB.samples, hB.ptsHo, hB.wsHo⟩
  have hPsd := (Mesh1.unit n hn).space_psd (e := 0) fun i _ y _ => by rw [map_zero]; exact le_rfl
  rw [hA.eq] at hx
  exact close_of_solution hb hk hlow hsize hC hB hS hfe h₀ h hx (C42_any_history hMe (by rw [hS]; exact hPsd.mass) hz ops x hrep)

end

namespace Example
open Mesh1

/-- solve_1d.py with `ORDER = k`. -/
noncomputable def cfgK (k : ℕ) (B : Built msh.Broken) : Cfg msh.Broken :=
  { cfg1 B with
    fe := msh.pk k
    full := stdSpace (fullSizes k (if k = 1 then 1 else 0) 32) (msh.pk k).m
    slab := stdSpace (slabSizes k (if k = 1 then 1 else 0)) (msh.pk k).m
    coup := stdSpace couplingSizes (msh.pk k).m
    bnd := stdSpace bndSizes (msh.pk k).m }

theorem builtK {k : ℕ} (hk : k ≤ 3) (ind : msh.Broken) : ∃ B om', construct LinearMap.id (orderArgs k 32 msh.sol1 msh.dsol1)
    (Script.d1.dataDomain ind) = (.ok B, om') ∧ (cfgK k B).Ok ∧ (cfgK k B).OfBuilt B := by
  have hq : ((if k = 1 then 1 else 0 : ℤ)).toNat = if k = 1 then 1 else 0 := by split <;> rfl
  obtain ⟨b, -, e⟩ := construct_run (interp := LinearMap.id) (a := orderArgs k 32 msh.sol1 msh.dsol1)
    (om := Script.d1.dataDomain ind) (by simp [orderArgs]) (by
      refine ⟨⟨by simp [orderArgs], by simp only [orderArgs]; exact_mod_cast hk⟩, ?_⟩
      simp only [orderArgs]
      split <;> norm_num)
  have hdt : (builtOf LinearMap.id (orderArgs k 32 msh.sol1 msh.dsol1) (Script.d1.dataDomain ind) b).D.dt = 1 / 32 := by
    simp [builtOf, orderArgs, Script.args, Script.T]
  refine ⟨_, _, e, ?_, ?_⟩
  · refine ⟨⟨getElmatTime_ok ?_ ?_, ?_⟩, stdSpace_ok _ _, ?_, stdSpace_ok _ _, ?_, stdSpace_ok _ _, rfl,
      stdSpace_ok _ _, rfl⟩
    · simpa [cfgK, cfg1, builtOf, orderArgs] using hk
    · simp only [cfgK, cfg1, builtOf, orderArgs]
      split <;> simp
    · rw [cfgK, cfg1, hdt]; norm_num
    · simp only [cfgK, cfg1, builtOf, orderArgs, stdSpace, hq]; rfl
    · simp only [cfgK, cfg1, builtOf, orderArgs, stdSpace, hq]; rfl
  · constructor <;> simp [cfgK, cfg1, builtOf, QuadRule.currentPts, QuadRule.tWeights, gaussRadau]

theorem cfgK_ind {k : ℕ} {ind : msh.Broken} {B : Built msh.Broken} {om' : DataDomain msh.Broken}
    (hb : construct LinearMap.id (orderArgs k 32 msh.sol1 msh.dsol1) (Script.d1.dataDomain ind) = (.ok B, om')) (hB : (cfgK k B).OfBuilt B) :
    (cfgK k B).D.ind = 0 := by
  obtain ⟨b, -, e⟩ := construct_facts hb
  rw [hB.D, e]
  simp [builtOf, Script.dataDomain, Script.fitted]

/-- C107 and C108 for solve_1d.py with `ORDER` 1, 2 or 3: the solution exists and is unique, and the errors reported for it are those of the
zero function. -/
theorem solveK {k : ℕ} (h1 : 1 ≤ k) (h3 : k ≤ 3) (ind : msh.Broken) : ∃ B om', construct LinearMap.id (orderArgs k 32 msh.sol1 msh.dsol1)
      (Script.d1.dataDomain ind) = (.ok B, om') ∧ (cfgK k B).Ok ∧ (cfgK k B).OfBuilt B ∧
    ∀ heap, ∃ w₁ A x ops, scriptSetup (cfgK k B) (freshWorld heap) = (.ok .rhs, w₁) ∧ (cfgK k B).Returns false A ∧
      (∀ d < A.size, A.mult x d = w₁.heap .rhs d) ∧ A.UniquelySolvable ∧ (runOps (cfgK k B) ops (freshWorld heap)).heap (.user 1) = x ∧
      ∃ rep z₁, measuredErrors (cfgK k B) (.user 1) (runOps (cfgK k B) ops (freshWorld heap)) = (.ok rep, z₁) ∧ CloseToZero rep := by
  obtain ⟨B, om', hb, hC, hB⟩ := builtK h3 ind
  refine ⟨B, om', hb, hC, hB, fun heap => ?_⟩
  obtain ⟨w₁, h, -⟩ := scriptSetup_run (C := cfgK k B) (freshWorld_fresh heap) (freshWorld_noFail _)
  obtain ⟨v₀, ops, v₁, g₀, hops, hA'⟩ := returns (cfgK k B) false
  have hMe : (cfgK k B).Meas := Meas.of_construct hb (by norm_num [orderArgs]) (by norm_num [orderArgs, Script.args, Script.T])
    ⟨hB.D, hB.T, hB.dsol, hB.samples, hB.ptsHo, hB.wsHo⟩
  have hU := (C107_solve_1d (C := cfgK k B) (N := 32) hb (by norm_num) h1 (by norm_num) hC hB rfl
    (fun i _ y _ => by rw [cfgK_ind hb hB, map_zero]; exact le_rfl) (msh.pk_primal k).le (msh.pk_indep k) g₀ ops hops hA').2
  obtain ⟨x, hx, -⟩ := hU (w₁.heap .rhs)
  have hz : (runOps (cfgK k B) [.setupFE, .write 1 x] (freshWorld heap)).heap (.user 1) = x :=
    runOps_write (cfgK k B) [.setupFE] 1 x (freshWorld heap)
  have hPsd := msh.space_psd (e := 0) fun i _ y _ => by rw [map_zero]; exact le_rfl
  obtain ⟨rep, z₁, hr⟩ := C42_returns hMe hPsd.mass (freshWorld_fresh heap) (freshWorld_noFail heap) [.write 1 x] (.user 1)
  exact ⟨w₁, _, x, _, h, ⟨v₀, ops, v₁, g₀, hops, hA'⟩, hx, hU, hz, rep, z₁, hr,
    C108_solution_partial hb h1 (by norm_num) (by norm_num) hC hB rfl (msh.pk_primal k).le (freshWorld_fresh heap) h
      ⟨v₀, ops, v₁, g₀, hops, hA'⟩ (freshWorld_fresh heap) [.setupFE, .write 1 x] (.user 1) (by rw [← hz] at hx; exact hx) hr⟩

/-- C108 is false for each order. -/
theorem C108_violated {k : ℕ} (h1 : 1 ≤ k) (h3 : k ≤ 3) : ¬ C108_statement k := by
  intro hst
  obtain ⟨B, om', hb, hC, hB, h⟩ := solveK h1 h3 0
  obtain ⟨w₁, A, x, ops, h1, h2, h3, -, h4, rep, z₁, h5, h6⟩ := h fun _ => 0
  have := hst 160 (by norm_num) LinearMap.id 0 B om' (cfgK k B) rfl hb hC hB rfl rfl _ _ _ _ _ _ ops (.user 1) rep (freshWorld_fresh _)
    h1 h2 (freshWorld_fresh _) (by rw [← h4] at h3; exact h3) h5
  have e : (cfgK k B).S.norm ((cfgK k B).D.sol (cfgK k B).T) = √(1 / 2) := by
    obtain ⟨b, -, e⟩ := construct_facts hb
    have e1 : (cfgK k B).D.sol = msh.sol1 := by rw [hB.D, e]; rfl
    have e2 : (cfgK k B).T = 1 := by rw [hB.T, e]; simp [builtOf, orderArgs, Script.args, Script.T]
    have := unit_norm_sol (n := 160) (hn := by norm_num) 1
    rw [e1, e2]
    refine ((norm_zero_sub _ _).symm.trans this).trans ?_
    simp
  rw [e] at this
  have h7 := (abs_le.1 h6.1).1
  have h8 : (1 / 2 : ℝ) ≤ √(1 / 2) := Real.le_sqrt_of_sq_le (by norm_num)
  norm_num at h7 this h8
  linarith

/-- C106 with cubic elements: a state of zero energy is zero. -/
example (ind : msh.Broken) : ∃ B om', construct LinearMap.id (orderArgs 3 32 msh.sol1 msh.dsol1) (Script.d1.dataDomain ind) = (.ok B, om') ∧
    (∀ x, Spec.energy (cfgK 3 B).S (cfgK 3 B).D (cfgK 3 B).D.ind ((cfgK 3 B).full.field (cfgK 3 B).fe x) = 0 →
      ∀ d < (cfgK 3 B).full.size, x d = 0) ∧ ∃ K, 0 ≤ K ∧ (cfgK 3 B).Observable K := by
  obtain ⟨B, om', hb, hC, hB⟩ := builtK le_rfl ind
  have hD := order_data (C := cfgK 3 B) hb (by norm_num) (by norm_num) hB
  obtain ⟨h1, ⟨K, hK0, ho⟩, -⟩ := C106_interval hC rfl (fun i _ y _ => by rw [cfgK_ind hb hB, map_zero]; exact le_rfl) hD.pos
    (by linarith [hD.lam]) (by rw [hD.N]; norm_num) (msh.pk_primal 3).le (msh.pk_indep 3)
  exact ⟨B, om', hb, h1, K, hK0, ho⟩

/-- `C106_grid` and `C106_unique_solution` for the mesh and the arguments of solve_3d.py. -/
example (ind : box.Broken) : ∃ B om', construct LinearMap.id (Script.d3.args box.sol3 box.dsol3) (Script.d3.dataDomain ind) = (.ok B, om') ∧
    (∀ x, Spec.energy (cfgBox B).S (cfgBox B).D (cfgBox B).D.ind ((cfgBox B).full.field (cfgBox B).fe x) = 0 →
      ∀ d < (cfgBox B).full.size, x d = 0) ∧ ∃ K, 0 ≤ K ∧ (cfgBox B).Observable K := by
  obtain ⟨B, om', hb, hC, hB⟩ := builtBox ind
  have hD : ThreeDData (cfgBox B) 8 := threeD_data (N := 8) hb (by norm_num) hB
  have hind : (cfgBox B).D.ind = 0 := by
    obtain ⟨b, -, e⟩ := construct_facts hb
    rw [hB.D, e]
    simp [builtOf, Script.dataDomain, Script.fitted, Script.fitted3, nxs, refLvl]
  obtain ⟨h1, ⟨K, hK0, ho⟩, -⟩ := C106_grid hC rfl (fun I y _ => by rw [hind]; exact le_rfl) hD.pos (by rw [hD.lam]; norm_num)
    (by rw [hD.N]; norm_num) (Grid.q1_primal _) (Grid.q1_indep _)
  exact ⟨B, om', hb, h1, K, hK0, ho⟩

/-- Quadratic elements are not determined by boundary values and jumps of the gradient: on one cell `y (1 - y)` has neither, so C92 does not
apply to them and the residual of the wave equation is needed. -/
example : ∃ u ∈ (Mesh1.unit 1 one_pos).lagrange 2, u ≠ 0 ∧ (Mesh1.unit 1 one_pos).space.pen u u = 0 ∧
    (Mesh1.unit 1 one_pos).space.ghost u u = 0 := by
  set m := Mesh1.unit 1 one_pos with hm
  let u : m.Broken := fun _ => ⟨fun y => y * (1 - y), mem_ana (analyticOnNhd_id.mul (analyticOnNhd_const.sub analyticOnNhd_id))⟩
  have hu : ∀ y, (m.cell 0 u).1 y = y * (1 - y) := fun y => by rw [m.cell_apply one_pos]
  refine ⟨u, m.mem_lagrange.2 ⟨fun i hi => ?_, fun i hi => ?_⟩, fun h0 => ?_, ?_, ?_⟩
  · obtain rfl : i = 0 := Nat.lt_one_iff.1 hi
    refine ⟨Polynomial.X - Polynomial.X ^ 2, by compute_degree, fun y => ?_⟩
    rw [hu]; simp; ring
  · exact absurd (show i + 1 < 1 from hi) (by omega)
  · have := hu (1 / 2)
    rw [h0, map_zero] at this
    norm_num at this
  · have x1 : m.x 1 = 1 := by simp [hm, Mesh1.unit]
    have x0 : m.x 0 = 0 := by simp [hm, Mesh1.unit]
    rw [Mesh1.space_pen]
    change 1 / m.h 0 * ((m.cell 0 u).1 (m.x 0) * (m.cell 0 u).1 (m.x 0)) + 1 / m.h 0 * ((m.cell 0 u).1 (m.x 1) * (m.cell 0 u).1 (m.x 1)) = 0
    rw [hu, hu, x1, x0]
    ring
  · rw [Mesh1.space_ghost]
    exact sum_eq_zero fun i hi => absurd (mem_range.1 hi) (Nat.not_lt_zero _)

end Example
end Dxss
