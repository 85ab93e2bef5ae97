import Verif.Lemmas.StandingEnergy
import Verif.Lemmas.SupSlab

/-!
# Property C105: standing waves are reconstructed from data everywhere
-/

namespace Dxss
open Finset

section
variable {V : Type} [AddCommGroup V] [Module ℝ V] {S : Space V} {g : V →ₗ[ℝ] V →ₗ[ℝ] ℝ} {ω : ℝ} {s i : V} {mS mE sS sE fS fE gE κ : ℝ}
  {interp : V →ₗ[ℝ] V} {a : Args V} {om' : DataDomain V} {B : Built V} {C : Cfg V}

/-- C105, on any domain and mesh with elements of order one to three in time: let the data be the values of a standing wave `cos(ωt) s` on the
whole domain (with a data domain which is not fitted to the mesh, C35), and let `i` be an interpolant of `s`.  If a vector solves the
linear system, the error `measured_errors` reports for the displacement, at the final time and over time, is bounded by interpolation
errors and a floor caused by the rounded quadrature weights. -/
theorem C105_standing_wave (hb : construct interp a ⟨S.one, false⟩ = (.ok B, om')) (haN : 0 < a.N) (haT : 0 < a.T) (hC : C.Ok)
    (hB : C.OfBuilt B) (hS : C.S = S) (hdef : S.Definite) (hP : C.D.Positive) (hdata : 0 < C.D.gData) (hlam : 0 < C.D.lam)
    (hq0 : 1 ≤ C.D.q) (hq : C.D.q ≤ 3) (hqs : C.D.qstar ≤ 3) (hwp : C.D.wellPosed = false) (hfw : C.D.jumpsFw = false)
    (hsmall : 1e-24 ≤ C.D.gData * C.D.gDual * C.D.dt ^ 2) (hm : Mode S g ω s i mS mE sS sE fS fE gE κ) (hi : i ∈ C.fe.primal)
    (hu : Spec.WaveSolution S C.fe.dual (standing ω s) (Set.Icc 0 (C.D.N * C.D.dt))) (hsol : C.D.sol = (standing ω s).u1)
    {w₀ : World V} (h₀ : w₀.Fresh) {r : Ref} {w₁ : World V} (h : scriptSetup C w₀ = (.ok r, w₁)) {A : Mat} (hA : C.Returns false A)
    {z₀ : World V} (hz : z₀.Fresh) (ops : List (Op V)) (x : InVec)
    (hx : ∀ d < A.size, A.mult ((runOps C ops z₀).heap x.ref) d = w₁.heap r d)
    {rep : ErrDict} {z₁ : World V} (hrep : measuredErrors C x.ref (runOps C ops z₀) = (.ok rep, z₁)) :
    let bound := √(96 * C.D.N * (3 * (modeDens C.D ω mS mE sS sE fS fE gE κ / C.D.gData + modeErr C.D ω mS mE) + 2.5e-9))
      + √(modeErr C.D ω mS mE)
    rep.l2T ≤ bound ∧ rep.linfU ≤ bound := by
  intro bound
  obtain ⟨b, -, eB⟩ := construct_facts hb
  have hdt := hP.dt
  have hdu := hP.dual
  have hind : C.D.ind = S.one := by rw [hB.D, eB]; simp [builtOf]
  have hPsd : C.S.Psd C.D.ind := by rw [hS, hind]; exact hm.psd
  have hdef' : C.S.Definite := hS ▸ hdef
  have hMe : C.Meas := Meas.of_construct hb haN haT ⟨hB.D, hB.T, hB.dsol, hB.samples, hB.ptsHo, hB.wsHo⟩
  have hNpos : 0 < C.D.N := by
    rw [hB.D, eB]
    change 0 < a.N.toNat
    omega
  have hNR : (1:ℝ) ≤ C.D.N := by exact_mod_cast hNpos
  have hdet : C.Determined (1 / C.D.gData) := by
    intro u _
    have p := hPsd.pen u; have g := hPsd.ghost u
    have e : C.S.omega C.D.ind u u = C.S.mass u u := by rw [hS, hind, hm.omega]
    have hp := hP.primal
    have : 0 ≤ C.D.gPrimal * (C.D.lam * C.S.pen u u + C.S.ghost u u) := by positivity
    rw [e, one_div, ← div_eq_inv_mul, le_div_iff₀ hdata]
    linarith
  have hK : 1 / C.D.gData * ((C.D.q + 1) ^ 2 / C.D.dt) * ((1e-20) ^ 2 * (C.D.qstar + 1) ^ 2) ≤ 1e-2 * (C.D.gDual * C.D.dt) := by
    have h1 : ((C.D.q : ℝ) + 1) ^ 2 * (C.D.qstar + 1) ^ 2 ≤ 256 := by
      have : (C.D.q : ℝ) ≤ 3 := by exact_mod_cast hq
      have : (C.D.qstar : ℝ) ≤ 3 := by exact_mod_cast hqs
      calc ((C.D.q : ℝ) + 1) ^ 2 * (C.D.qstar + 1) ^ 2 ≤ (3 + 1) ^ 2 * (3 + 1) ^ 2 := by gcongr
        _ = 256 := by norm_num
    have e : 1 / C.D.gData * (((C.D.q:ℝ) + 1) ^ 2 / C.D.dt) * ((1e-20) ^ 2 * ((C.D.qstar:ℝ) + 1) ^ 2)
        = 1e-40 * (((C.D.q : ℝ) + 1) ^ 2 * (C.D.qstar + 1) ^ 2) / (C.D.gData * C.D.dt) := by
      field_simp; norm_num
    rw [e, div_le_iff₀ (by positivity)]
    have e2 : 1e-2 * (C.D.gDual * C.D.dt) * (C.D.gData * C.D.dt) = 1e-2 * (C.D.gData * C.D.gDual * C.D.dt ^ 2) := by ring
    rw [e2]
    norm_num at hsmall ⊢
    linarith
  obtain ⟨xs, hX, hE'⟩ := standing_energy hb hC hB hS hPsd (fun v => by rw [hind]; exact (hm.omega v v).le) hP hdata hlam hNpos hq0 hq hqs hwp hfw
    hsmall (C68_full_data_observe hC hPsd hdef' hP (by positivity) hdet hNpos) hK hm hi hu hsol h₀ h hA ((runOps C ops z₀).heap x.ref) hx
  set E := modeDens C.D ω mS mE sS sE fS fE gE κ
  set M := modeErr C.D ω mS mE
  obtain ⟨e, z₂, hs⟩ := C42_returns hMe hPsd.mass (Example.freshWorld_fresh fun _ => 0) (Example.freshWorld_noFail _) [.write 1 xs] (.user 1)
  have hs' := C42_any_history hMe hPsd.mass (Example.freshWorld_fresh _) _ (.user 1) hs
  rw [show (runOps C [.setupFE, .write 1 xs] (Example.freshWorld fun _ => 0)).heap (InVec.user 1).ref = xs from
    runOps_write C [.setupFE] 1 xs (Example.freshWorld fun _ => 0)] at hs'
  have hR := C42_any_history hMe hPsd.mass hz ops x hrep
  have k2 := report_sup hC hPsd hP (by positivity) hdet hE' hR hs'
  have k3 := report_standing hm hC hS hP hlam hq0 hq hsol hX hs'
  have k4 := C42_final_le_max hMe hR
  have b1 : 96 * (1 / C.D.gData) / C.D.dt * (C.D.N * C.D.dt * (3 * (E + C.D.gData * M) + 2.5e-9 * C.D.gData))
      = 96 * C.D.N * (3 * (E / C.D.gData + M) + 2.5e-9) := by
    field_simp
  rw [b1] at k2
  have key : rep.linfU ≤ bound := by
    have := (abs_le.1 k2).2
    change rep.linfU ≤ √(96 * C.D.N * (3 * (E / C.D.gData + M) + 2.5e-9)) + √M
    linarith
  exact ⟨k4.trans key, key⟩

end
end Dxss
