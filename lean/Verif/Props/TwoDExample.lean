import Verif.Props.TwoD

/-! # C109, C110, C111: solve_2d.py on the unit square cut into two triangles -/

namespace Dxss.Example
open Finset Tri

theorem square_bd : square.BdSquare := by
  rintro x ⟨⟨K, i⟩, he, s, -, rfl⟩
  fin_cases K <;> fin_cases i
  · right; left; simp [segPt, src, tgt, square]
  · exact absurd he (by decide)
  · right; right; left; simp [segPt, src, tgt, square]
  · exact absurd he (by decide)
  · right; right; right; simp [segPt, src, tgt, square]
  · left; simp [segPt, src, tgt, square]

theorem square_size : orderConst (triConst 1 (√2) 1 (√2) 45) (√2 ^ 2) (1 / (8:ℤ)) 1e-3 ≤ 2.1e26 := by
  have s2 : √2 ≤ (1.5:ℝ) := by rw [Real.sqrt_le_left (by norm_num)]; norm_num
  have e2 : √2 ^ 2 = (2:ℝ) := Real.sq_sqrt (by norm_num)
  have e4 : √2 ^ 4 = (4:ℝ) := by rw [show (4:ℕ) = 2 * 2 by rfl, pow_mul, e2]; norm_num
  have hc : triConst 1 (√2) 1 (√2) 45 ≤ 800 := by
    unfold triConst
    rw [e2, e4, mul_assoc 2 (√2) (√2), Real.mul_self_sqrt (by norm_num)]
    norm_num
    linarith
  have hc0 : 0 ≤ triConst 1 (√2) 1 (√2) 45 := triConst_nonneg square_bounds (by norm_num)
  unfold orderConst
  rw [e2]
  generalize triConst 1 (√2) 1 (√2) 45 = c at *
  calc 7 * c / 1e-3 * (13 + 340 * (2 / (1 / ((8:ℤ):ℝ)) ^ 2) + c * (2 / (1 / ((8:ℤ):ℝ)) ^ 4) * (12528 + 115200 * (2 / (1 / ((8:ℤ):ℝ)) ^ 2)))
      ≤ 7 * 800 / 1e-3 * (13 + 340 * (2 / (1 / ((8:ℤ):ℝ)) ^ 2) + 800 * (2 / (1 / ((8:ℤ):ℝ)) ^ 4) * (12528 + 115200 * (2 / (1 / ((8:ℤ):ℝ)) ^ 2))) := by
        gcongr
    _ ≤ _ := by norm_num

/-- solve_2d.py with its own elements and sample solution. -/
noncomputable def cfgSq (B : Built square.Broken) : Cfg square.Broken where
  S := square.space
  D := B.D
  fe := square.cg 3 3
  full := stdSpace (fullSizes 3 3 8) (square.cg 3 3).m
  slab := stdSpace (slabSizes 3 3) (square.cg 3 3).m
  coup := stdSpace couplingSizes (square.cg 3 3).m
  bnd := stdSpace bndSizes (square.cg 3 3).m
  pts := [-1, -0.575319, 0.181066, 0.822824].map fun pt : ℝ => 0.5 * (1 - 0) * pt + 0.5 * (1 + 0)
  ws := [0.125, 0.657689, 0.776387, 0.440924].map fun w : ℝ => 0.5 * 1 * w
  T := B.T
  dsol := B.dsol
  ptsHo := [-1, -0.72048, -0.167181, 0.446314, 0.885792].map fun pt : ℝ => 0.5 * (1 - 0) * pt + 0.5 * (1 + 0)
  wsHo := [0.08, 0.446208, 0.623653, 0.562712, 0.287427].map fun w : ℝ => 0.5 * 1 * w
  samples := B.samples

theorem builtSq (ind : square.Broken) : ∃ B om', construct LinearMap.id (Script.d2.args square.sol2 square.dsol2)
    (Script.d2.dataDomain ind) = (.ok B, om') ∧ (cfgSq B).Ok ∧ (cfgSq B).OfBuilt B := by
  obtain ⟨b, -, e⟩ := construct_run (interp := LinearMap.id) (a := Script.d2.args square.sol2 square.dsol2)
    (om := Script.d2.dataDomain ind) (Script.N_pos .d2).ne' (Script.d2.supported _ _)
  have hdt : (builtOf LinearMap.id (Script.d2.args square.sol2 square.dsol2) (Script.d2.dataDomain ind) b).D.dt = 1 / 8 := by
    simp [builtOf, Script.args, Script.T, Script.N, refLvlToN, refLvl]
  refine ⟨_, _, e, ?_, ?_⟩
  · refine ⟨⟨getElmatTime_ok ?_ ?_, ?_⟩, stdSpace_ok _ _, rfl, stdSpace_ok _ _, rfl, stdSpace_ok _ _, rfl,
      stdSpace_ok _ _, rfl⟩
    · simp [cfgSq, builtOf, Script.args, Script.otime, Script.order]
    · simp [cfgSq, builtOf, Script.args, Script.otime, Script.order]
    · rw [cfgSq, hdt]; norm_num
  · constructor <;> simp [cfgSq, builtOf, QuadRule.currentPts, QuadRule.tWeights, gaussRadau]

theorem measSq {ind : square.Broken} {B : Built square.Broken} {om' : DataDomain square.Broken}
    (hb : construct LinearMap.id (Script.d2.args square.sol2 square.dsol2) (Script.d2.dataDomain ind) = (.ok B, om'))
    (hB : (cfgSq B).OfBuilt B) : (cfgSq B).Meas :=
  Meas.of_construct hb (Script.N_pos .d2) (by norm_num [Script.args, Script.T])
    ⟨hB.D, hB.T, hB.dsol, hB.samples, hB.ptsHo, hB.wsHo⟩

theorem nonnegSq {ind : square.Broken} {B : Built square.Broken} {om' : DataDomain square.Broken}
    (hb : construct LinearMap.id (Script.d2.args square.sol2 square.dsol2) (Script.d2.dataDomain ind) = (.ok B, om'))
    (hB : (cfgSq B).OfBuilt B) : square.Nonneg (cfgSq B).D.ind := by
  have hind : (cfgSq B).D.ind = 0 := by
    obtain ⟨b, -, e⟩ := construct_facts hb
    rw [hB.D, e]
    simp [builtOf, Script.dataDomain, Script.fitted]
  intro K s t _ _ _
  rw [hind]; exact le_rfl

/-- C109 for solve_2d.py: its sample solution as data, with its initial values. -/
example (ind : square.Broken) : ∃ B om', construct LinearMap.id (Script.d2.args square.sol2 square.dsol2) (Script.d2.dataDomain ind)
      = (.ok B, om') ∧ ∀ heap, ∃ r w₁, ∃ Q : ℕ → (ℝ → ℝ) → ℝ,
      getSpacetimeRhs (cfgSq B) (runOps (cfgSq B) [.setupFE, .setInitial (square.sol2 0) (square.dsol2 0)] (freshWorld heap)) = (.ok r, w₁) ∧
      ∀ y, ∑ d ∈ range (cfgSq B).full.size, w₁.heap r d * y d
        = Spec.pathForm (cfgSq B).S (cfgSq B).D (cfgSq B).D.ind square.path2 ((cfgSq B).full.field (cfgSq B).fe y)
          + 1e-20 * (cfgSq B).S.mass (cfgSq B).S.one ((cfgSq B).full.field (cfgSq B).fe y 2 0)
          + ∑ n ∈ range (cfgSq B).D.N, (cfgSq B).D.gData *
            (Q n (fun t => (cfgSq B).S.omega (cfgSq B).D.ind (square.sol2 t) (Spec.val (cfgSq B).D.q (cfgSq B).D.dt n ((cfgSq B).full.field (cfgSq B).fe y 0) t))
              - Spec.slabInt (cfgSq B).D.dt n (fun t => (cfgSq B).S.omega (cfgSq B).D.ind (square.sol2 t)
                (Spec.val (cfgSq B).D.q (cfgSq B).D.dt n ((cfgSq B).full.field (cfgSq B).fe y 0) t))) := by
  obtain ⟨B, om', hb, hC, hB⟩ := builtSq ind
  refine ⟨B, om', hb, fun heap => ?_⟩
  obtain ⟨w₁, h⟩ := getRhs_after (cfgSq B) heap (square.sol2 0) (square.dsol2 0) []
  choose Q hQ using fun k => exists_ruleOnSlab (construct_qr hb).1 (cfgSq B).D.dt k
  have key := C109_solve_2d square_bd (N := 8) (C := cfgSq B) hb (by norm_num) hC hB rfl (square.cg_dual 3 3).le
    (freshWorld_fresh heap) (freshWorld_noFail heap) [] (by simp) h fun k _ => hQ k
  exact ⟨_, w₁, Q, h, key⟩

/-- C110 and C111 for solve_2d.py: the solution of its system exists and is unique, and the errors reported for it are those of the zero
vector. -/
theorem solveSq (ind : square.Broken) : ∃ B om', construct LinearMap.id (Script.d2.args square.sol2 square.dsol2) (Script.d2.dataDomain ind)
      = (.ok B, om') ∧ (cfgSq B).Ok ∧ (cfgSq B).OfBuilt B ∧
    ∀ heap, ∃ w₁ A x ops, scriptSetup (cfgSq B) (freshWorld heap) = (.ok .rhs, w₁) ∧ (cfgSq B).Returns false A ∧
      (∀ d < A.size, A.mult x d = w₁.heap .rhs d) ∧ A.UniquelySolvable ∧ (runOps (cfgSq B) ops (freshWorld heap)).heap (.user 1) = x ∧
      ∃ rep z₁ rep0, measuredErrors (cfgSq B) (.user 1) (runOps (cfgSq B) ops (freshWorld heap)) = (.ok rep, z₁) ∧
        CloseReport rep rep0 ∧ rep0.l2T = (cfgSq B).S.norm ((cfgSq B).D.sol (cfgSq B).T) ∧ 2 / 25 ≤ rep0.l2T := by
  obtain ⟨B, om', hb, hC, hB⟩ := builtSq ind
  refine ⟨B, om', hb, hC, hB, fun heap => ?_⟩
  obtain ⟨w₁, h, -⟩ := scriptSetup_run (C := cfgSq B) (freshWorld_fresh heap) (freshWorld_noFail _)
  obtain ⟨v₀, ops, v₁, g₀, hops, hA'⟩ := returns (cfgSq B) false
  have hU := (C110_solve_2d (C := cfgSq B) (N := 8) hb (by norm_num) hC hB rfl (nonnegSq hb hB) (square.cg_primal 3 3).le
    (square.cg_indep 3 3) square_bounds ((mul_le_mul_of_nonneg_right square_size (by positivity)).trans (by norm_num)) g₀ ops hops hA').2
  obtain ⟨x, hx, -⟩ := hU (w₁.heap .rhs)
  have hz : (runOps (cfgSq B) [.setupFE, .write 1 x] (freshWorld heap)).heap (.user 1) = x :=
    runOps_write (cfgSq B) [.setupFE] 1 x (freshWorld heap)
  have hz0 : (runOps (cfgSq B) [.setupFE, .write 1 0] (freshWorld heap)).heap (.user 1) = 0 :=
    runOps_write (cfgSq B) [.setupFE] 1 0 (freshWorld heap)
  have hPsd := square.space_psd (i := 0) fun K s t _ _ _ => le_rfl
  obtain ⟨rep, z₁, hr⟩ := C42_returns (measSq hb hB) hPsd.mass (freshWorld_fresh heap) (freshWorld_noFail heap) [.write 1 x] (.user 1)
  obtain ⟨rep0, y₁, hr0⟩ := C42_returns (measSq hb hB) hPsd.mass (freshWorld_fresh heap) (freshWorld_noFail heap) [.write 1 0] (.user 1)
  obtain ⟨n1, n2, -, n4, -⟩ := C111_solution_partial hb square_tiles square_bounds square_size hC hB rfl (square.cg_primal 3 3).le
    (freshWorld_fresh heap) h ⟨v₀, ops, v₁, g₀, hops, hA'⟩ (freshWorld_fresh heap) [.setupFE, .write 1 x] (.user 1) (by rw [← hz] at hx; exact hx) hr
    (freshWorld_fresh heap) [.setupFE, .write 1 0] (.user 1) hz0 hr0
  exact ⟨w₁, _, x, _, h, ⟨v₀, ops, v₁, g₀, hops, hA'⟩, hx, hU, hz, rep, z₁, rep0, hr, n1, n2, n4⟩

/-- C111 is false. -/
theorem C111_violated : ¬ C111_statement := by
  intro hst
  obtain ⟨B, om', hb, hC, hB, h⟩ := solveSq 0
  obtain ⟨w₁, A, x, ops, h1, h2, h3, -, h4, rep, z₁, rep0, h5, h6, h7, h8⟩ := h fun _ => 0
  have := hst square square_tiles square_bd LinearMap.id 0 B om' (cfgSq B) hb hC hB rfl rfl _ _ _ _ _ _ ops (.user 1) rep (freshWorld_fresh _)
    h1 h2 (freshWorld_fresh _) (by rw [← h4] at h3; exact h3) h5
  rw [← h7] at this
  have h9 := (abs_le.1 h6.1).1
  norm_num at h8 h9 this
  linarith

/-- `C110_every_mesh`, `C110_elliptic` and `C110_unique_solution` for solve_2d.py. -/
example (ind : square.Broken) : ∃ B om', construct LinearMap.id (Script.d2.args square.sol2 square.dsol2) (Script.d2.dataDomain ind)
      = (.ok B, om') ∧ (∀ x, Spec.energy (cfgSq B).S (cfgSq B).D (cfgSq B).D.ind ((cfgSq B).full.field (cfgSq B).fe x) = 0 →
        ∀ d < (cfgSq B).full.size, x d = 0) ∧ (cfgSq B).EllipticBound (triConst 1 (√2) 1 (√2) 45) := by
  obtain ⟨B, om', hb, hC, hB⟩ := builtSq ind
  have hD : TwoDData (cfgSq B) 8 := twoD_data (N := 8) hb (by norm_num) hB
  have hlam : 0 < (cfgSq B).D.lam := by rw [hD.lam]; norm_num
  refine ⟨B, om', hb, (C110_every_mesh hC rfl (nonnegSq hb hB) hD.pos hlam (by rw [hD.N]; norm_num)
    (square.cg_primal 3 3).le (square.cg_indep 3 3)).1, ?_⟩
  have := C110_elliptic (C := cfgSq B) rfl hlam le_rfl (square.cg_primal 3 3).le square_bounds
  rwa [hD.lam] at this

/-- C111 for the whole program: GMRes stopping at its initial guess. -/
example (ind : square.Broken) : ∃ B om' rep0, construct LinearMap.id (Script.d2.args square.sol2 square.dsol2) (Script.d2.dataDomain ind)
      = (.ok B, om') ∧ rep0.linfU = 1 / 2 ∧ 2 / 25 ≤ rep0.l2T ∧
      ∀ heap, ∃ w₂, runScript (cfgSq B) .d2 someBackend ⟨[.write 3 0], 2, 3⟩ false (freshWorld heap)
        = (.ok (.user 3, some rep0), w₂) := by
  obtain ⟨B, om', hb, hC, hB⟩ := builtSq ind
  have hPsd := square.space_psd (i := 0) fun K s t _ _ _ => le_rfl
  obtain ⟨rep0, y₁, hr0⟩ := C42_returns (measSq hb hB) hPsd.mass (freshWorld_fresh fun _ => 0) (freshWorld_noFail fun _ => 0) [.write 1 0] (.user 1)
  have hR := C42_any_history (measSq hb hB) hPsd.mass (freshWorld_fresh fun _ => 0) [.setupFE, .write 1 0] (.user 1) hr0
  have hz0 : (runOps (cfgSq B) [.setupFE, .write 1 0] (freshWorld fun _ => 0)).heap (.user 1) = 0 :=
    runOps_write (cfgSq B) [.setupFE] 1 0 (freshWorld fun _ => 0)
  change Report _ ((runOps (cfgSq B) [.setupFE, .write 1 0] (freshWorld fun _ => 0)).heap (.user 1)) _ at hR
  rw [hz0] at hR
  obtain ⟨r1, r2⟩ := report2_zero hb square_tiles hB rfl hR
  refine ⟨B, om', rep0, hb, r2, r1 ▸ final_bound2, fun heap => ?_⟩
  obtain ⟨w₀, w₁, w₂, rep, h1, h2, h3, -, h4, -⟩ := C111_run hb square_tiles square_bounds square_size hC hB rfl (square.cg_primal 3 3).le
    (someBackend_lu _) (someBackend_lu _) (K := ⟨[.write 3 0], 2, 3⟩) (by decide) (freshWorld_fresh heap) (freshWorld_noFail heap) hR
  refine ⟨w₂, ?_⟩
  rw [← h4]
  · exact h3
  · change (do let A ← getSlabMatrix (cfgSq B); let A ← needMat A; setSolverSlab (someBackend.lu A); let A ← getSlabMatrixFirst
               let A ← needMat A; setSolverFirst (someBackend.lu A); gmres (cfgSq B) _ : WM _ Ref) w₀ = _ at h2
    obtain ⟨_, _, -, h2⟩ := M.ok_bind h2
    obtain ⟨_, _, -, h2⟩ := M.ok_bind h2
    obtain ⟨_, _, -, h2⟩ := M.ok_bind h2
    obtain ⟨_, _, -, h2⟩ := M.ok_bind h2
    obtain ⟨_, _, -, h2⟩ := M.ok_bind h2
    obtain ⟨_, v, -, h2⟩ := M.ok_bind h2
    have : w₁ = { v with heap := Function.update v.heap (.user 3) 0 } := (Prod.ext_iff.1 h2).2.symm
    rw [this]
    exact Function.update_self (Ref.user 3) (0 : Vec) v.heap

/-- `C110_mesh_sizes` applies to a triangle of the size of those in solve_2d.py. -/
example : ∃ m : Tri, ∃ hm hM δ R, m.Bounds hm hM δ R ∧ 0 < m.n ∧ 1 / 100 ≤ hm ∧ hM ≤ 1 / 8 ∧ 1e-4 ≤ δ ∧ R ^ 2 ≤ 2 := by
  let m : Tri := ⟨1, fun _ => ![![0, 0], ![0.08, 0], ![0, 0.08]], fun K => by simp [det2]; norm_num, fun _ => none, by simp, by simp⟩
  have hl : ∀ e : m.Edge, 0.05 ^ 2 ≤ (tgt e 0 - src e 0) ^ 2 + (tgt e 1 - src e 1) ^ 2 ∧
      (tgt e 0 - src e 0) ^ 2 + (tgt e 1 - src e 1) ^ 2 ≤ (1 / 8 : ℝ) ^ 2 := by
    rintro ⟨K, i⟩
    fin_cases i <;> simp [tgt, src, m] <;> norm_num
  refine ⟨m, 0.05, 1 / 8, 1e-3, 1, ⟨by norm_num, by norm_num, by norm_num, by norm_num, fun e => Real.le_sqrt_of_sq_le (hl e).1,
    fun e => (Real.sqrt_le_left (by norm_num)).2 (hl e).2, fun K => ?_, fun K i => ?_⟩, one_pos, by norm_num, le_rfl, by norm_num, by norm_num⟩
  · simp [det, det2, m]; norm_num
  · fin_cases i <;> simp [m] <;> norm_num

end Dxss.Example
