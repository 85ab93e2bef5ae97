import Verif.Lemmas.StandingWave

/-!
# The energy of the error for the data of a standing wave
-/

namespace Dxss
open Finset

section
variable {V : Type} [AddCommGroup V] [Module ℝ V] {S : Space V} {g : V →ₗ[ℝ] V →ₗ[ℝ] ℝ} {ω : ℝ} {s i : V} {mS mE sS sE fS fE gE κ : ℝ}
  {interp : V →ₗ[ℝ] V} {a : Args V} {om om' : DataDomain V} {B : Built V} {C : Cfg V}

/-- With any data domain: the computed solution is close to the interpolant of the wave in the norm of the method. -/
theorem standing_energy (hb : construct interp a om = (.ok B, om')) (hC : C.Ok) (hB : C.OfBuilt B) (hS : C.S = S)
    (hPsd : C.S.Psd C.D.ind) (he : ∀ v, S.omega C.D.ind v v ≤ S.mass v v) (hP : C.D.Positive) (hdata : 0 < C.D.gData) (hlam : 0 < C.D.lam)
    (hNpos : 0 < C.D.N) (hq0 : 1 ≤ C.D.q) (hq : C.D.q ≤ 3) (hqs : C.D.qstar ≤ 3) (hwp : C.D.wellPosed = false) (hfw : C.D.jumpsFw = false)
    (hsmall : 1e-24 ≤ C.D.gData * C.D.gDual * C.D.dt ^ 2) {K : ℝ} (ho : C.Observable K)
    (hK : K * ((1e-20) ^ 2 * (C.D.qstar + 1) ^ 2) ≤ 1e-2 * (C.D.gDual * C.D.dt))
    (hm : Mode S g ω s i mS mE sS sE fS fE gE κ) (hi : i ∈ C.fe.primal)
    (hu : Spec.WaveSolution S C.fe.dual (standing ω s) (Set.Icc 0 (C.D.N * C.D.dt))) (hsol : C.D.sol = (standing ω s).u1)
    {w₀ : World V} (h₀ : w₀.Fresh) {r : Ref} {w₁ : World V} (h : scriptSetup C w₀ = (.ok r, w₁)) {A : Mat} (hA : C.Returns false A)
    (x : Vec) (hx : ∀ d < A.size, A.mult x d = w₁.heap r d) :
    ∃ xs, LinTime C.D ω i (C.full.field C.fe xs) ∧
      Spec.energy C.S C.D C.D.ind (C.full.field C.fe x - C.full.field C.fe xs)
        ≤ C.D.N * C.D.dt * (3 * (modeDens C.D ω mS mE sS sE fS fE gE κ + C.D.gData * modeErr C.D ω mS mE) + 2.5e-9 * C.D.gData) := by
  have hdt := hP.dt
  have hdu := hP.dual
  have hNR : (1:ℝ) ≤ C.D.N := by exact_mod_cast hNpos
  obtain ⟨xs, hX⟩ := exists_standing (ω := ω) hC hi
  obtain ⟨w₂, hw₂⟩ := Example.getRhs_after C (fun _ => 0) ((standing ω s).u1 0) ((standing ω s).u2 0) []
  have hheap : w₂.heap .rhs = w₁.heap r := by
    rw [C33_not_well_posed_partial (u := 0) (v := 0) hwp (Example.freshWorld_fresh _) _ hw₂,
      C33_not_well_posed_partial (u := 0) (v := 0) hwp h₀ _ (scriptSetup_getRhs h)]
  choose Q hQ using fun k => exists_ruleOnSlab (construct_qr hb).1 C.D.dt k
  obtain ⟨v₀, opsA, v₁, g₀, hopsA, hA'⟩ := id hA
  have hAs : A.size = C.full.size := by rw [hA.eq]; rfl
  have hE := C71_error_estimate hb hC hB hPsd hP hlam hNpos
    ho hK (G := fun v => g v v)
    hm.flux_nonneg (by rw [hS]; exact hm.flux) (hS ▸ hu) (fun t => congrFun hsol t) (Example.freshWorld_fresh _)
    (Example.freshWorld_noFail _) [] opsA (by simp) hw₂ g₀ hopsA hA' (fun k _ => hQ k) x xs
    (fun d hd => by rw [hheap]; exact hx d (hAs ▸ hd)) hX.dual1 hX.dual2 (fun k _ => by rw [hS]; exact standing_integrable S g ω s hq _ k)
  have d1 := mode_dist hm he hP hlam hq0 hq hwp hfw hX (construct_qr hb).1 (fun k _ => hQ k)
  have d2 := data_standing hm he hP hq0 hq hX
  have d3 : C.S.mass (C.S.one - C.full.field C.fe xs 0 0) (C.S.one - C.full.field C.fe xs 0 0) ≤ 4 := by
    have e : C.full.field C.fe xs 0 0 = (1:ℝ) • i := by
      rw [linTime_initial hNpos hX]
      simp [sa]
    rw [e]
    refine (sub_smul_le _ hPsd.mass _ _ _).trans ?_
    have := hm.massI; have := hm.one
    rw [hS]
    linarith
  rw [← hS] at d1 d2
  set E := modeDens C.D ω mS mE sS sE fS fE gE κ
  set M := modeErr C.D ω mS mE
  refine ⟨xs, hX, ?_⟩
  refine hE.trans ?_
  have t1 : (1e-20) ^ 2 * ((C.D.qstar:ℝ) + 1) ^ 2 / (C.D.gDual * C.D.dt) * C.S.mass (C.S.one - C.full.field C.fe xs 0 0) (C.S.one - C.full.field C.fe xs 0 0)
      ≤ 6.4e-15 * (C.D.gData * (C.D.N * C.D.dt)) := by
    have h1 : ((C.D.qstar:ℝ) + 1) ^ 2 ≤ 16 := by
      have : (C.D.qstar : ℝ) ≤ 3 := by exact_mod_cast hqs
      calc ((C.D.qstar : ℝ) + 1) ^ 2 ≤ (3 + 1) ^ 2 := by gcongr
        _ = 16 := by norm_num
    refine (mul_le_mul_of_nonneg_left d3 (by positivity)).trans ?_
    have e : (1e-20) ^ 2 * ((C.D.qstar:ℝ) + 1) ^ 2 / (C.D.gDual * C.D.dt) * 4 = 4e-40 * ((C.D.qstar:ℝ) + 1) ^ 2 / (C.D.gDual * C.D.dt) := by
      field_simp; norm_num
    rw [e, div_le_iff₀ (by positivity)]
    have e2 : 6.4e-15 * (C.D.gData * (C.D.N * C.D.dt)) * (C.D.gDual * C.D.dt) = 6.4e-15 * (C.D.gData * C.D.gDual * C.D.dt ^ 2) * C.D.N := by ring
    rw [e2]
    have := mul_le_mul (mul_le_mul_of_nonneg_left hsmall (show (0:ℝ) ≤ 6.4e-15 by norm_num)) hNR zero_le_one (by positivity)
    norm_num at this ⊢
    linarith
  have t2 : (2e-5 : ℝ) ^ 2 * (∑ k ∈ range C.D.N, C.D.gData * Spec.slabInt C.D.dt k (fun t => C.S.omega C.D.ind
      (Spec.val C.D.q C.D.dt k (C.full.field C.fe xs 0) t) (Spec.val C.D.q C.D.dt k (C.full.field C.fe xs 0) t)))
      ≤ (2e-5) ^ 2 * (C.D.gData * (C.D.N * C.D.dt)) :=
    mul_le_mul_of_nonneg_left d2 (by norm_num)
  have e : C.D.N * C.D.dt * (3 * (E + C.D.gData * M) + 2.5e-9 * C.D.gData)
      = 3 * (C.D.N * C.D.dt * (E + C.D.gData * M)) + 2.5e-9 * (C.D.gData * (C.D.N * C.D.dt)) := by ring
  rw [e]
  have p : 0 ≤ C.D.gData * (C.D.N * C.D.dt) := by positivity
  norm_num at t1 t2 d1 ⊢
  linarith

end
end Dxss
