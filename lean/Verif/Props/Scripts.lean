import Verif.Model.Scripts
import Verif.Props.Rhs
import Verif.Props.Drivers
import Mathlib.Analysis.Calculus.Deriv.Basic

/-!
# Properties C66, C67: the problems the solver scripts set up
-/

namespace Dxss
open Finset
set_option linter.unusedSectionVars false
variable {V : Type} [AddCommGroup V] [Module ℝ V]

/-! ## C67: the sample solutions -/

namespace Script

/-- Second derivative of `f` in direction of coordinate `i`. -/
noncomputable def secondDeriv (f : (ℕ → ℝ) → ℝ) (i : ℕ) (x : ℕ → ℝ) : ℝ :=
  deriv (deriv fun s => f (Function.update x i s)) (x i)

theorem hasDerivAt_sin_mul (a b x : ℝ) :
    HasDerivAt (fun s => b * Real.sin (a * s)) (b * a * Real.cos (a * x)) x := by
  have := ((Real.hasDerivAt_sin (a * x)).comp x ((hasDerivAt_id x).const_mul a)).const_mul b
  refine (this.congr_deriv ?_)
  simp; ring

theorem hasDerivAt_cos_mul (a b x : ℝ) :
    HasDerivAt (fun s => b * Real.cos (a * s)) (-(b * a) * Real.sin (a * x)) x := by
  have := ((Real.hasDerivAt_cos (a * x)).comp x ((hasDerivAt_id x).const_mul a)).const_mul b
  refine (this.congr_deriv ?_)
  simp; ring

theorem deriv_sin_mul (a b : ℝ) : deriv (fun s => b * Real.sin (a * s)) = fun x => b * a * Real.cos (a * x) :=
  funext fun x => (hasDerivAt_sin_mul a b x).deriv

theorem deriv_cos_mul (a b : ℝ) : deriv (fun s => b * Real.cos (a * s)) = fun x => -(b * a) * Real.sin (a * x) :=
  funext fun x => (hasDerivAt_cos_mul a b x).deriv

theorem deriv2_sin (a b x : ℝ) : deriv (deriv fun s => b * Real.sin (a * s)) x = -a ^ 2 * (b * Real.sin (a * x)) := by
  rw [deriv_sin_mul, deriv_cos_mul]; ring

theorem deriv2_cos (a b x : ℝ) : deriv (deriv fun s => b * Real.cos (a * s)) x = -a ^ 2 * (b * Real.cos (a * x)) := by
  rw [deriv_cos_mul, deriv_sin_mul]; ring

/-- C67: `dt_sample_sol` is the time derivative of `sample_sol`. -/
theorem C67_derivative (s : Script) (t : ℝ) (x : ℕ → ℝ) :
    HasDerivAt (fun t => s.sampleSol t x) (s.dtSampleSol t x) t := by
  cases s
  · have := hasDerivAt_cos_mul (2 * Real.pi) (Real.sin (2 * Real.pi * x 0)) t
    refine (this.congr_deriv ?_).congr_of_eventuallyEq (.of_forall fun t => ?_) <;> simp only [sampleSol, dtSampleSol] <;> ring
  · have := hasDerivAt_cos_mul (√2 * Real.pi) (Real.sin (Real.pi * x 0) * Real.sin (Real.pi * x 1)) t
    refine (this.congr_deriv ?_).congr_of_eventuallyEq (.of_forall fun t => ?_) <;> simp only [sampleSol, dtSampleSol] <;> ring
  · have := hasDerivAt_cos_mul (√3 * Real.pi) (Real.sin (Real.pi * x 0) * Real.sin (Real.pi * x 1) * Real.sin (Real.pi * x 2)) t
    refine (this.congr_deriv ?_).congr_of_eventuallyEq (.of_forall fun t => ?_) <;> simp only [sampleSol, dtSampleSol] <;> ring

/-- C67: the sample solution solves the wave equation in the dimension of the script's mesh. -/
theorem C67_wave_equation (s : Script) (t : ℝ) (x : ℕ → ℝ) :
    deriv (fun t => s.dtSampleSol t x) t = ∑ i ∈ range s.dim, secondDeriv (s.sampleSol t) i x := by
  have e : (fun t => s.dtSampleSol t x) = deriv fun t => s.sampleSol t x :=
    funext fun t => (C67_derivative s t x).deriv.symm
  rw [e]
  cases s
  · have e0 : (fun t => d1.sampleSol t x) = fun t => Real.sin (2 * Real.pi * x 0) * Real.cos (2 * Real.pi * t) :=
      funext fun t => by simp only [sampleSol]; ring
    have e1 : (fun s => d1.sampleSol t (Function.update x 0 s))
        = fun s => Real.cos (2 * Real.pi * t) * Real.sin (2 * Real.pi * s) := by
      funext s; simp [sampleSol]
    simp only [dim, sum_range_one, secondDeriv]
    rw [e0, e1, deriv2_cos, deriv2_sin]
    ring
  · have e0 : (fun t => d2.sampleSol t x)
        = fun t => (Real.sin (Real.pi * x 0) * Real.sin (Real.pi * x 1)) * Real.cos (√2 * Real.pi * t) :=
      funext fun t => by simp only [sampleSol]; ring
    have e1 : (fun s => d2.sampleSol t (Function.update x 0 s))
        = fun s => (Real.cos (√2 * Real.pi * t) * Real.sin (Real.pi * x 1)) * Real.sin (Real.pi * s) := by
      funext s; simp [sampleSol]; ring
    have e2 : (fun s => d2.sampleSol t (Function.update x 1 s))
        = fun s => (Real.cos (√2 * Real.pi * t) * Real.sin (Real.pi * x 0)) * Real.sin (Real.pi * s) := by
      funext s; simp [sampleSol]
    simp only [dim, sum_range_succ, sum_range_zero, secondDeriv]
    rw [e0, e1, e2, deriv2_cos, deriv2_sin, deriv2_sin, mul_pow, Real.sq_sqrt (by norm_num)]
    ring
  · have e0 : (fun t => d3.sampleSol t x)
        = fun t => (Real.sin (Real.pi * x 0) * Real.sin (Real.pi * x 1) * Real.sin (Real.pi * x 2))
            * Real.cos (√3 * Real.pi * t) :=
      funext fun t => by simp only [sampleSol]; ring
    have e1 : (fun s => d3.sampleSol t (Function.update x 0 s))
        = fun s => (Real.cos (√3 * Real.pi * t) * Real.sin (Real.pi * x 1) * Real.sin (Real.pi * x 2))
            * Real.sin (Real.pi * s) := by
      funext s; simp [sampleSol]; ring
    have e2 : (fun s => d3.sampleSol t (Function.update x 1 s))
        = fun s => (Real.cos (√3 * Real.pi * t) * Real.sin (Real.pi * x 0) * Real.sin (Real.pi * x 2))
            * Real.sin (Real.pi * s) := by
      funext s; simp [sampleSol]; ring
    have e3 : (fun s => d3.sampleSol t (Function.update x 2 s))
        = fun s => (Real.cos (√3 * Real.pi * t) * Real.sin (Real.pi * x 0) * Real.sin (Real.pi * x 1))
            * Real.sin (Real.pi * s) := by
      funext s; simp [sampleSol]
    simp only [dim, sum_range_succ, sum_range_zero, secondDeriv]
    rw [e0, e1, e2, e3, deriv2_cos, deriv2_sin, deriv2_sin, deriv2_sin, mul_pow, Real.sq_sqrt (by norm_num)]
    ring

/-- C67: the sample solution vanishes on the boundary of the unit interval, square and cube. -/
theorem C67_boundary (s : Script) (t : ℝ) (x : ℕ → ℝ) {i : ℕ} (hi : i < s.dim) (hx : x i = 0 ∨ x i = 1) :
    s.sampleSol t x = 0 ∧ s.dtSampleSol t x = 0 := by
  cases s <;> simp only [dim] at hi <;> interval_cases i <;> rcases hx with hx | hx <;>
    simp [sampleSol, dtSampleSol, hx]

/-- C67: it is not the zero solution. -/
theorem C67_nontrivial (s : Script) : ∃ x, (∀ i, 0 < x i ∧ x i < 1) ∧ s.sampleSol 0 x = 1 := by
  cases s
  · refine ⟨fun _ => 1 / 4, fun _ => by norm_num, ?_⟩
    have : 2 * Real.pi * (1 / 4) = Real.pi / 2 := by ring
    simp [sampleSol, -one_div, this]
  · refine ⟨fun _ => 1 / 2, fun _ => by norm_num, ?_⟩
    have : Real.pi * (1 / 2) = Real.pi / 2 := by ring
    simp [sampleSol, -one_div, this]
  · refine ⟨fun _ => 1 / 2, fun _ => by norm_num, ?_⟩
    have : Real.pi * (1 / 2) = Real.pi / 2 := by ring
    simp [sampleSol, -one_div, this]

end Script

/-- C67: the 1D sample solution with its derivative is a solution in the sense needed by C64 and C65. -/
theorem C67_solution_1d : ∃ u : Spec.Path Example.Smooth,
    (∀ t x, (u.u1 t).1 x = Script.d1.sampleSol t fun _ => x) ∧
    (∀ t x, (u.u2 t).1 x = Script.d1.dtSampleSol t fun _ => x) ∧
    ∀ Y T, Spec.WaveSolution Example.smoothSpace Y u T := by
  refine ⟨Example.standing, fun t x => ?_, fun t x => ?_, Example.standing_solution⟩
  · simp [Example.standing, Example.mode, Script.sampleSol]
  · simp [Example.standing, Example.mode, Script.dtSampleSol]

/-! ## C66: the data of the scripts -/

section
variable {s : Script} {interp : V →ₗ[ℝ] V} {ind : V} {sol dsol : ℝ → V} {B : Built V} {om' : DataDomain V}

theorem Script.supported (s : Script) (sol dsol : ℝ → V) : (s.args sol dsol).Supported := by
  cases s <;> simp [Args.Supported, Script.args, Script.otime, Script.order]

theorem Script.N_pos (s : Script) : 0 < s.N := by
  cases s <;> simp [Script.N, refLvlToN, refLvl]

theorem Script.fitted_true (s : Script) : s.fitted = true := by
  cases s <;> simp [Script.fitted, Script.fitted3, nxs, refLvl]

/-- The full statement of C66: the right-hand side of each script is the load functional of the sample
solution on the script's data domain (up to the placeholder).  It is false, see `C66_violated`. -/
def C66_statement (V : Type) [AddCommGroup V] [Module ℝ V] : Prop :=
  ∀ (s : Script) (interp : V →ₗ[ℝ] V) (ind : V) (sol dsol : ℝ → V) (B : Built V) (om' : DataDomain V),
    construct interp (s.args sol dsol) (s.dataDomain ind) = (.ok B, om') →
    ∀ (C : Cfg V), C.Ok → C.OfBuilt B → ∀ w₀ : World V, w₀.Fresh → w₀.NoFail →
    ∀ r w₁, scriptSetup C w₀ = (.ok r, w₁) →
    ∀ Q : ℕ → (ℝ → ℝ) → ℝ, (∀ n < C.D.N, RuleOnSlab B.qr C.D.dt n (Q n)) → ∀ y,
    ∑ d ∈ range C.full.size, w₁.heap r d * y d
      = Spec.load C.S C.D ((s.dataDomain ind).expected interp) 0 0 Q (C.full.field C.fe y)
        + 1e-20 * C.S.mass C.S.one (C.full.field C.fe y 2 0)

/-- C66, what does hold: every script's call of the constructor succeeds, with weights and step length for
which the matrix is analysed in C12-C16. -/
theorem C66_construct_partial (s : Script) (interp : V →ₗ[ℝ] V) (ind : V) (sol dsol : ℝ → V) :
    ∃ B om', construct interp (s.args sol dsol) (s.dataDomain ind) = (.ok B, om') ∧ B.D.Ok ∧ B.D.Positive ∧
      B.D.wellPosed = false ∧ B.D.jumpsFw = false ∧ (B.D.N : ℤ) = s.N ∧ B.D.dt * B.D.N = s.T ∧ B.D.sol = sol := by
  obtain ⟨B, om', h, h1, h2, -, -, h3, h4, h5, h6, h7, h8, -, -, -, -, -, -, -, h9, -⟩ :=
    C36_derived (interp := interp) (a := s.args sol dsol) (om := s.dataDomain ind) (Script.N_pos s).ne'
      (s.supported sol dsol)
  have hN : (B.D.N : ℤ) = s.N := h7 (Script.N_pos s)
  have hT : 0 < s.T := by cases s <;> norm_num [Script.T]
  have hNR : (B.D.N : ℝ) = (s.N : ℝ) := by exact_mod_cast hN
  have hN0 : (0 : ℝ) < s.N := by exact_mod_cast Script.N_pos s
  have hdt : B.D.dt = s.T / s.N := h1
  simp only [Prod.mk.injEq] at h5 h6
  obtain ⟨g1, g2, g3, g4⟩ := h5
  have hq : B.D.qstar ≤ 3 := by
    have := h6.2
    cases s <;> simp [Script.args, Script.otime, Script.order] at this <;> omega
  refine ⟨B, om', h, h8 hT.ne', ⟨?_, ?_, ?_, ?_, ?_, ?_, ?_⟩, h4, h3, hN, ?_, h9⟩
  · rw [hdt]; positivity
  · rw [h2]; positivity
  · rw [g1]; norm_num [Script.args, Script.stabs]
  · rw [g2]; norm_num [Script.args, Script.stabs]
  · rw [g3]; norm_num [Script.args, Script.stabs]
  · rw [g4]; norm_num [Script.args, Script.stabs]
  · rw [g2, g4]
    have : ((B.D.qstar : ℝ) + 1) ^ 2 ≤ 16 := by
      have : (B.D.qstar : ℝ) ≤ 3 := by exact_mod_cast hq
      nlinarith [(Nat.cast_nonneg B.D.qstar : (0 : ℝ) ≤ B.D.qstar)]
    norm_num [Script.args, Script.stabs]
    nlinarith
  · rw [hdt, hNR]; field_simp

theorem scriptSetup_getRhs {C : Cfg V} {w₀ w₁ : World V} {r : Ref} (h : scriptSetup C w₀ = (.ok r, w₁)) :
    getSpacetimeRhs C (runOps C [.setupFE, .prepare] w₀) = (.ok r, w₁) := by
  rcases e1 : setupFE C w₀ with ⟨_ | _, w⟩
  · simp [scriptSetup, M.bind_run, e1] at h
  rcases e2 : prepareGmres C w with ⟨_ | _, w'⟩
  · simp [scriptSetup, M.bind_run, e1, e2] at h
  have : runOps C [.setupFE, .prepare] w₀ = w' := by
    simp [runOps, runOp, e1, e2]
  rw [this]
  simpa [scriptSetup, M.bind_run, e1, e2] using h

/-- With `fitted=True` the right-hand side a script computes is the placeholder, whatever the sample solution
and the data domain. -/
theorem C66_placeholder_only (hb : construct interp (s.args sol dsol) (s.dataDomain ind) = (.ok B, om'))
    {C : Cfg V} (hC : C.Ok) (hB : C.OfBuilt B) {w₀ : World V} (h₀ : w₀.Fresh) {r : Ref} {w₁ : World V}
    (h : scriptSetup C w₀ = (.ok r, w₁)) (y : Vec) :
    ∑ d ∈ range C.full.size, w₁.heap r d * y d = 1e-20 * C.S.mass C.S.one (C.full.field C.fe y 2 0) := by
  have hwp : B.D.wellPosed = false := by
    obtain ⟨B', om'', h', -, -, hw, -⟩ := C66_construct_partial s interp ind sol dsol
    rw [hb] at h'; cases h'; exact hw
  rw [C33_not_well_posed_partial (u := 0) (v := 0) (by rw [hB.D]; exact hwp) h₀ _ (scriptSetup_getRhs h), rhsVecOf,
    assembleVec_pair C.S C.D.ind C.fe C.full hC.full, hB.D]
  exact C35_no_data_in_rhs s.fitted_true rfl hb C.S C.pts C.ws 0 0 _

/-- Consequence: two runs of a script with different sample solutions and different data domains solve the
same linear system. -/
theorem C66_same_system (hb : construct interp (s.args sol dsol) (s.dataDomain ind) = (.ok B, om'))
    {ind₂ : V} {sol₂ dsol₂ : ℝ → V} {B₂ : Built V} {om₂ : DataDomain V}
    (hb₂ : construct interp (s.args sol₂ dsol₂) (s.dataDomain ind₂) = (.ok B₂, om₂))
    {C C₂ : Cfg V} (hC : C.Ok) (hB : C.OfBuilt B) (hB₂ : C₂.OfBuilt B₂)
    (hS : C₂.S = C.S) (hfe : C₂.fe = C.fe) (hL : C₂.full = C.full)
    {w₀ v₀ : World V} (h₀ : w₀.Fresh) (g₀ : v₀.Fresh) {r r₂ : Ref} {w₁ v₁ : World V}
    (h : scriptSetup C w₀ = (.ok r, w₁)) (h₂ : scriptSetup C₂ v₀ = (.ok r₂, v₁)) :
    (∀ d < C.full.size, w₁.heap r d = v₁.heap r₂ d) ∧ stMatOf C false = stMatOf C₂ false := by
  have hC₂ : C₂.full.Ok C₂.fe.m := by rw [hL, hfe]; exact hC.full
  have hwp : ∀ {sol dsol : ℝ → V} {ind : V} {B : Built V} {om' : DataDomain V},
      construct interp (s.args sol dsol) (s.dataDomain ind) = (.ok B, om') → B.D.wellPosed = false := by
    intro sol dsol ind B om' hb
    obtain ⟨B', om'', h', -, -, hw, -⟩ := C66_construct_partial s interp ind sol dsol
    rw [hb] at h'; cases h'; exact hw
  constructor
  · intro d hd
    have e1 := C66_placeholder_only hb hC hB h₀ h (Pi.single d 1)
    have e2 : ∑ d' ∈ range C₂.full.size, v₁.heap r₂ d' * (Pi.single d 1 : Vec) d'
        = 1e-20 * C₂.S.mass C₂.S.one (C₂.full.field C₂.fe (Pi.single d 1) 2 0) := by
      rw [C33_not_well_posed_partial (u := 0) (v := 0) (by rw [hB₂.D]; exact hwp hb₂) g₀ _ (scriptSetup_getRhs h₂),
        rhsVecOf, assembleVec_pair C₂.S C₂.D.ind C₂.fe C₂.full hC₂, hB₂.D]
      exact C35_no_data_in_rhs s.fitted_true rfl hb₂ C₂.S C₂.pts C₂.ws 0 0 _
    rw [hS, hfe, hL, ← e1] at e2
    simpa [Pi.single_apply, hd] using e2.symm
  · obtain ⟨b, hbb, e⟩ := construct_run (interp := interp) (a := s.args sol dsol) (om := s.dataDomain ind)
      (Script.N_pos s).ne' (s.supported sol dsol)
    obtain ⟨b₂, hbb₂, e₂⟩ := construct_run (interp := interp) (a := s.args sol₂ dsol₂) (om := s.dataDomain ind₂)
      (Script.N_pos s).ne' (s.supported sol₂ dsol₂)
    rw [e] at hb; rw [e₂] at hb₂
    have k := Except.ok.inj (Prod.ext_iff.1 hb).1
    have k₂ := Except.ok.inj (Prod.ext_iff.1 hb₂).1
    have kD : C.D = { C₂.D with sol := C.D.sol } := by
      rw [hB.D, hB₂.D, ← k, ← k₂]
      simp [builtOf, Script.args, Script.dataDomain, s.fitted_true]
      rfl
    rw [stMatOf, stMatOf, hS, hfe, hL, kD]
    rfl

/-- Consequence: the stabilised energy of the computed solution is of the size of the placeholder. -/
theorem C66_solution_energy (hb : construct interp (s.args sol dsol) (s.dataDomain ind) = (.ok B, om'))
    {C : Cfg V} (hC : C.Ok) (hB : C.OfBuilt B) {w₀ : World V} (h₀ : w₀.Fresh) {r : Ref} {w₁ : World V}
    (h : scriptSetup C w₀ = (.ok r, w₁)) (x : Vec)
    (hx : ∀ d < C.full.size, (stMatOf C false).mult x d = w₁.heap r d) :
    let X := C.full.field C.fe x
    Spec.energy C.S C.D C.D.ind X = -(1e-20 * C.S.mass (C.S.one - X 0 0) (X 2 0)) := by
  intro X
  obtain ⟨y, hy⟩ := exists_flip hC.full (fe := C.fe) x
  have e1 := C66_placeholder_only hb hC hB h₀ h y
  have e2 := C14_stability_identity C.S C.D hC.disc C.D.ind X
  have e3 : evalForm C.S C.D.ind (C.D.stForm false) X (C.full.field C.fe y)
      = ∑ d ∈ range C.full.size, w₁.heap r d * y d := by
    rw [← assemble_pair C.S C.D.ind (C.D.stForm false) C.fe C.full hC.full x y]
    exact sum_congr rfl fun d hd => by rw [← hx d (mem_range.1 hd)]; rfl
  have e4 : C.full.field C.fe y 2 0 = - X 2 0 := by rw [hy]; simp [Spec.flipDual, X]
  rw [e1, e4] at e3
  rw [hy] at e3
  rw [e3] at e2
  rw [map_sub, LinearMap.sub_apply]
  rw [map_neg] at e2
  linarith

end

namespace Example

/-- The 1D script on the three-dimensional space, with the constant data `1` on all of the domain. -/
noncomputable def cfgS (B : Built V3) : Cfg V3 := { cfg3 B with full := stdSpace (fullSizes 1 1 32) fe3.m }

theorem builtS (sol : ℝ → V3) : ∃ B om', construct LinearMap.id (Script.d1.args sol sol)
    (Script.d1.dataDomain (1, 0, 0)) = (.ok B, om') ∧ (cfgS B).Ok ∧ (cfgS B).OfBuilt B ∧ B.D.N = 32 ∧ B.D.dt = 1 / 32 ∧
    B.D.q = 1 ∧ B.D.gData = 1e4 ∧ B.D.sol = sol ∧ B.D.wellPosed = false := by
  obtain ⟨b, -, e⟩ := construct_run (interp := LinearMap.id) (a := Script.d1.args sol sol)
    (om := Script.d1.dataDomain (1, 0, 0)) (by simp [Script.args, Script.N]) (Script.d1.supported sol sol)
  have hdt : (builtOf LinearMap.id (Script.d1.args sol sol) (Script.d1.dataDomain (1, 0, 0)) b).D.dt = 1 / 32 := by
    simp [builtOf, Script.args, Script.T, Script.N]
  refine ⟨_, _, e, ?_, ?_, rfl, hdt, rfl, rfl, rfl, rfl⟩
  · refine ⟨⟨getElmatTime_ok ?_ ?_, ?_⟩, stdSpace_ok _ _, rfl, stdSpace_ok _ _, rfl, stdSpace_ok _ _, rfl,
      stdSpace_ok _ _, rfl⟩
    · simp [cfgS, cfg3, builtOf, Script.args, Script.otime, Script.order]
    · simp [cfgS, cfg3, builtOf, Script.args, Script.otime, Script.order]
    · change _ ≠ _; rw [cfgS, cfg3, hdt]; norm_num
  · constructor <;> simp [cfgS, cfg3, builtOf, QuadRule.currentPts, QuadRule.tWeights, gaussRadau]

/-- C66 is false. -/
theorem C66_violated : ¬ C66_statement V3 := by
  intro hst
  obtain ⟨B, om', hb, hC, hO, hN, hdt, hq, hg, hsol, hwp⟩ := builtS fun _ => (1, 0, 0)
  obtain ⟨w₁, h, -⟩ := scriptSetup_run (C := cfgS B) (freshWorld_fresh fun _ => 0) (freshWorld_noFail _)
  choose Q hQ using exists_ruleOnSlab (construct_qr hb).1 (1 / 32)
  let y : Vec := fun d => if d < 128 then 1 else 0
  have hf : ∀ i : ℤ, 0 ≤ i → i < 64 → (cfgS B).full.field (cfgS B).fe y 0 i = (1, 0, 0) := by
    intro i h0 h1
    have hi : i.toNat < 64 := by omega
    have hd : ∀ s < 2, y ((cfgS B).full.dof 0 i.toNat s) = 1 := by
      intro s hs
      have : (cfgS B).full.dof 0 i.toNat s = _ := stdSpace_dof (n := fullSizes 1 1 32) (m := fe3.m) (c := 0) hs
      rw [this]
      simp only [y]
      rw [if_pos]
      simp [off, fullSizes]
      omega
    have hc : (0 ≤ i ∧ i < ((cfgS B).full.nsub 0 : ℤ)) := ⟨h0, h1⟩
    have hm : (cfgS B).fe.m 0 = 2 := rfl
    rw [FSpace.field, if_pos hc, hm, sum_range_succ, sum_range_one, hd 0 (by norm_num), hd 1 (by norm_num)]
    simp [cfgS, cfg3, fe3, FE.basis]
  have hz : (cfgS B).full.field (cfgS B).fe y 2 0 = 0 := by
    rw [FSpace.field]
    split
    · refine sum_eq_zero fun s hs => ?_
      have hs : s < fe3.m 2 := mem_range.1 hs
      have : (cfgS B).full.dof 2 (0 : ℤ).toNat s = _ := stdSpace_dof (n := fullSizes 1 1 32) (m := fe3.m) (c := 2) hs
      rw [this]
      have hy : y (off (fullSizes 1 1 32) fe3.m 2 + (s * fullSizes 1 1 32 2 + (0 : ℤ).toNat)) = 0 := by
        simp only [y]
        rw [if_neg]
        simp [off, fullSizes, FE.m, fe3]
        omega
      rw [hy, zero_smul]
    · rfl
  have h1 := hst .d1 LinearMap.id (1, 0, 0) (fun _ => (1, 0, 0)) (fun _ => (1, 0, 0)) B om' hb (cfgS B) hC hO _
    (freshWorld_fresh fun _ => 0) (freshWorld_noFail _) _ w₁ h Q
    (fun n _ => by rw [show (cfgS B).D.dt = 1 / 32 from hdt]; exact hQ n) y
  rw [C66_placeholder_only hb hC hO (freshWorld_fresh _) h y, hz, map_zero, mul_zero, Spec.load,
    show (cfgS B).D.N = 32 from hN, show (cfgS B).D.dt = 1 / 32 from hdt, show (cfgS B).D.q = 1 from hq,
    show (cfgS B).D.gData = 1e4 from hg, show (cfgS B).D.sol = _ from hsol] at h1
  have hm : modeSpace.omega (1, 0, 0) (1, 0, 0) (1, 0, 0) = 1 := by
    change ∫ x in (0:ℝ)..1, (ι (1, 0, 0)).1 x * (ι (1, 0, 0)).1 x * (ι (1, 0, 0)).1 x = 1
    simp [ι_apply]
  have hpos : ∀ n ∈ range 32, 0 < (1e4 : ℝ) * Q n (fun t => (cfgS B).S.omega
      ((Script.d1.dataDomain ((1, 0, 0) : V3)).expected LinearMap.id) (1, 0, 0)
      (Spec.val 1 (1 / 32) n ((cfgS B).full.field (cfgS B).fe y 0) t)) := by
    intro n hn
    have hn : n < 32 := mem_range.1 hn
    have hv : (fun t => (cfgS B).S.omega ((Script.d1.dataDomain ((1, 0, 0) : V3)).expected LinearMap.id) (1, 0, 0)
        (Spec.val 1 (1 / 32) n ((cfgS B).full.field (cfgS B).fe y 0) t)) = fun _ => 1 := by
      funext t
      have : Spec.val 1 (1 / 32) n ((cfgS B).full.field (cfgS B).fe y 0) t = (1, 0, 0) := by
        rw [Spec.val, sum_congr rfl fun j hj => by rw [hf _ (by positivity) (by have := mem_range.1 hj; push_cast; omega)],
          ← sum_smul, (C01_partition_of_unity (by norm_num) _).1, one_smul]
      rw [this]
      exact hm
    rw [hv]
    have := C64_quadrature_error (construct_qr hb).1 (by norm_num) (hQ n) (f := fun _ => 1) continuous_const 1 (by simp)
      (δ := 0) (fun t _ _ => by simp)
    have e : ∑ k ∈ range 7, |(1 : Polynomial ℝ).coeff k| = 1 := by simp [sum_range_succ, Polynomial.coeff_one]
    have e2 : Spec.slabInt (1 / 32) n (fun _ => 1) = 1 / 32 := by
      rw [Spec.slabInt]; simp; ring
    rw [e, e2, abs_le] at this
    norm_num at this ⊢
    linarith
  have := sum_pos hpos ⟨0, by simp⟩
  rw [if_neg (by simp [show (cfgS B).D.wellPosed = false from hwp]), add_zero] at h1
  exact this.ne (h1.trans (add_zero _))

/-- The theorems on the placeholder apply to this run. -/
example (sol : ℝ → V3) : ∃ B w₁, scriptSetup (cfgS B) (freshWorld fun _ => 0) = (.ok .rhs, w₁) ∧ ∀ y,
    ∑ d ∈ range (cfgS B).full.size, w₁.heap .rhs d * y d
      = 1e-20 * modeSpace.mass modeSpace.one ((cfgS B).full.field fe3 y 2 0) := by
  obtain ⟨B, om', hb, hC, hO, -⟩ := builtS sol
  obtain ⟨w₁, h, -⟩ := scriptSetup_run (C := cfgS B) (freshWorld_fresh fun _ => 0) (freshWorld_noFail _)
  exact ⟨B, w₁, h, C66_placeholder_only hb hC hO (freshWorld_fresh _) h⟩

example (sol sol₂ : ℝ → V3) : ∃ B B₂ w₁ v₁, scriptSetup (cfgS B) (freshWorld fun _ => 0) = (.ok .rhs, w₁) ∧
    scriptSetup (cfgS B₂) (freshWorld fun _ => 1) = (.ok .rhs, v₁) ∧ B.D.sol = sol ∧ B₂.D.sol = sol₂ ∧
    ∀ d < (cfgS B).full.size, w₁.heap .rhs d = v₁.heap .rhs d := by
  obtain ⟨B, om', hb, hC, hO, -, -, -, -, hs, -⟩ := builtS sol
  obtain ⟨B₂, om₂, hb₂, hC₂, hO₂, -, -, -, -, hs₂, -⟩ := builtS sol₂
  obtain ⟨w₁, h, -⟩ := scriptSetup_run (C := cfgS B) (freshWorld_fresh fun _ => 0) (freshWorld_noFail _)
  obtain ⟨v₁, h₂, -⟩ := scriptSetup_run (C := cfgS B₂) (freshWorld_fresh fun _ => 1) (freshWorld_noFail _)
  exact ⟨B, B₂, w₁, v₁, h, h₂, hs, hs₂, (C66_same_system hb hb₂ hC hO hO₂ rfl rfl rfl (freshWorld_fresh _)
    (freshWorld_fresh _) h h₂).1⟩

end Example
end Dxss
