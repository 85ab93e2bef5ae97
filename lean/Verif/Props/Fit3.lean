import Verif.Props.Fit
import Verif.Props.Wave3Error

/-!
# Property C114 on boxes, for the problem of solve_3d.py
-/

namespace Dxss
open Finset Real MeasureTheory

/-- The functions with values in `[0, 1]`, such as indicators of sets. -/
def Grid.Fraction {n : ℕ} (m : Grid n) (e : m.Broken) : Prop := ∀ I, ∀ y ∈ Set.Icc (Grid.lo I) (Grid.hi I), (e I).1 y ∈ Set.Icc (0:ℝ) 1

theorem Grid.Fraction.nonneg {n : ℕ} {m : Grid n} {e : m.Broken} (h : m.Fraction e) : m.Nonneg e := fun I y hy => (h I y hy).1

theorem Grid.Fraction.le {n : ℕ} {m : Grid n} {e : m.Broken} (h : m.Fraction e) (v : m.Broken) : m.space.omega e v v ≤ m.space.mass v v := by
  rw [Grid.space_omega, Grid.space_mass]
  refine sum_le_sum fun I _ => ?_
  refine setIntegral_mono_on (AnaD.intOn (((AnaD.cont _).mul (AnaD.cont _)).mul (AnaD.cont _)) _ _) (AnaD.intOn ((AnaD.cont _).mul (AnaD.cont _)) _ _)
    isCompact_Icc.isClosed.measurableSet fun y hy => ?_
  rw [mul_assoc]
  exact mul_le_of_le_one_left (mul_self_nonneg _) (h I y hy).2

/-- The indicator of a union of cells is such a function. -/
theorem Grid.fraction_union {n : ℕ} (m : Grid n) (p : m.Cell → Prop) [DecidablePred p] : m.Fraction fun I => if p I then m.space.one I else 0 := by
  intro I y _
  by_cases h : p I
  · simp only [if_pos h]
    exact (⟨zero_le_one, le_rfl⟩ : (1:ℝ) ∈ Set.Icc (0:ℝ) 1)
  · simp only [if_neg h]
    exact (⟨le_rfl, zero_le_one⟩ : (0:ℝ) ∈ Set.Icc (0:ℝ) 1)

section
variable {k : ℕ} {hk : 0 < k} {N : ℤ} {interp : (Grid.unit 2 k hk).Broken →ₗ[ℝ] (Grid.unit 2 k hk).Broken} {ind : (Grid.unit 2 k hk).Broken}
  {om' : DataDomain (Grid.unit 2 k hk).Broken} {B : Built (Grid.unit 2 k hk).Broken} {C : Cfg (Grid.unit 2 k hk).Broken}

/-- C114 for solve_3d.py with `N ≥ 100` slabs, `k ≥ 100` cells in each direction and any data domain which is not lost (C35): the squared
misfit of the solution of the linear system is at most `0.075/N² + 0.065/k² + 1.5e-9`. -/
theorem C114_solve_3d (hb : construct interp { Script.d3.args (Grid.unit 2 k hk).sol3 (Grid.unit 2 k hk).dsol3 with N := N } ⟨ind, false⟩ = (.ok B, om'))
    (hind : (Grid.unit 2 k hk).Fraction ind) (hN : 100 ≤ N) (hk1 : 100 ≤ k) (hN' : (N : ℝ) ≤ 1e13) (hsize : (k : ℝ) * N ≤ 1e16)
    (hC : C.Ok) (hB : C.OfBuilt B) (hS : C.S = (Grid.unit 2 k hk).space) (hfe : C.fe = (Grid.unit 2 k hk).q1)
    {w₀ : World (Grid.unit 2 k hk).Broken} (h₀ : w₀.Fresh) {r : Ref} {w₁ : World (Grid.unit 2 k hk).Broken}
    (h : scriptSetup C w₀ = (.ok r, w₁)) {A : Mat} (hA : C.Returns false A) (x : Vec) (hx : ∀ d < A.size, A.mult x d = w₁.heap r d) :
    Spec.misfit (Grid.unit 2 k hk).space C.D ind (Grid.unit 2 k hk).sol3 (C.full.field C.fe x) ≤ 0.075 / N ^ 2 + 0.065 / k ^ 2 + 1.5e-9 := by
  have hN0 : 0 < N := by omega
  have hD := threeD_data hb hN0 hB
  obtain ⟨b, -, eB⟩ := construct_facts hb
  have hi : C.D.ind = ind := by rw [hB.D, eB]; simp [builtOf]
  have hsol0 : C.D.sol = (Grid.unit 2 k hk).sol3 := by rw [hB.D, eB]; rfl
  have hsol : C.D.sol = (standing (√3 * π) (Grid.boxS hk : (Grid.unit 2 k hk).Broken)).u1 := by rw [hB.D, eB]; rfl
  have hdata : C.D.gData = 1e4 := by rw [hB.D, eB]; rfl
  have hNR : (100:ℝ) ≤ N := by exact_mod_cast hN
  have hNR0 : (0:ℝ) < N := by linarith
  have hkR : (100:ℝ) ≤ k := by exact_mod_cast hk1
  have hPsd : C.S.Psd C.D.ind := by rw [hi]; exact hS ▸ (Grid.unit 2 k hk).space_psd hind.nonneg
  have hNpos : 0 < C.D.N := by rw [hD.N]; omega
  have hlam : 0 < C.D.lam := by rw [hD.lam]; norm_num
  have hdt := hD.pos.dt
  have hdt1 : C.D.dt ≤ 1 / 200 := by
    rw [hD.dt, div_div]
    exact one_div_le_one_div_of_le (by norm_num) (by linarith)
  have hu : Spec.WaveSolution (Grid.unit 2 k hk).space C.fe.dual (standing (√3 * π) (Grid.boxS hk)) (Set.Icc 0 (C.D.N * C.D.dt)) := by
    rw [hfe, ← Grid.path3_eq]
    exact C104_solution (Grid.sol3_wave _) (Grid.q1_conforming _)
  have hdef : C.S.Definite := hS ▸ (Grid.unit 2 k hk).space_definite
  have ho := C68_full_data_observe hC hPsd hdef hD.pos (by positivity) (threeD_determined hD hS (by rw [hi]; exact hind.nonneg)
    (by rw [hfe]; exact Grid.q1_primal _)) hNpos
  have key := C114_fit hb hC hB hS hPsd (by rw [hi]; exact hind.le) hD.pos (by rw [hdata]; norm_num) hlam hNpos hD.q.ge
    (by rw [hD.q]; norm_num) (by rw [hD.qstar]; norm_num) hD.wp hD.fw (by
      rw [hdata, hD.dual, hD.dt]
      have : (1e-13:ℝ) ≤ 1 / N := by
        rw [le_div_iff₀ hNR0]; norm_num at hN' ⊢; linarith
      have := pow_le_pow_left₀ (by norm_num) this 2
      have e : (1e4:ℝ) * 1 * (1 / 2 / N) ^ 2 = 2500 * (1 / N) ^ 2 := by ring
      rw [e]
      norm_num at this ⊢
      linarith) ho (by
      rw [hD.q, hD.qstar, hD.dual, hD.dt, one_mul, div_div, mul_one_div, le_div_iff₀ (by positivity)]
      have e : 1e4 * (k:ℝ) ^ 2 * ((((1:ℕ):ℝ) + 1) ^ 2 / (1 / (2 * (N:ℝ)))) * ((1e-20) ^ 2 * (((1:ℕ):ℝ) + 1) ^ 2) * (2 * N)
        = 6.4e-35 * (k * N) ^ 2 := by
        field_simp; norm_num
      rw [e]
      have := pow_le_pow_left₀ (by positivity) hsize 2
      norm_num at this ⊢
      linarith) Grid.mode3 (by rw [hfe]; exact Grid.boxI_mem hk) hu hsol h₀ h hA x hx
  rw [hS, hi, hsol0] at key
  refine key.trans ?_
  obtain ⟨n1, n2⟩ := Grid.mode3_numbers (D := C.D) hD.lam hD.primal hD.dual hdt hdt1 hk1
  have e0 : (C.D.N : ℝ) * C.D.dt = 1 / 2 := by
    have : (C.D.N : ℝ) = N := by
      rw [hD.N]
      exact_mod_cast Int.toNat_of_nonneg (by omega : 0 ≤ N)
    rw [this, hD.dt]; field_simp
  rw [e0, hdata]
  set E := modeDens C.D (√3 * π) (1 / 8) _ _ _ _ _ _ _
  set M := modeErr C.D (√3 * π) (1 / 8) _
  have e2 : C.D.dt ^ 2 = 1 / 4 * (1 / N) ^ 2 := by rw [hD.dt]; ring
  have e4 : C.D.dt ^ 4 = 1 / 16 * (1 / N) ^ 4 := by rw [hD.dt]; ring
  rw [e2] at n1
  rw [e4] at n2
  have f : ∀ z : ℝ, 100 ≤ z → (1 / z) ^ 4 ≤ 1e-4 * (1 / z) ^ 2 := fun z hz => by
    have h1 : (1 / z) ^ 2 ≤ (1 / 100) ^ 2 := pow_le_pow_left₀ (by positivity) (one_div_le_one_div_of_le (by norm_num) hz) 2
    have e : (1 / z) ^ 4 = (1 / z) ^ 2 * (1 / z) ^ 2 := by ring
    rw [e]
    exact mul_le_mul_of_nonneg_right (h1.trans (by norm_num)) (by positivity)
  have f1 := f N hNR
  have f2 := f k hkR
  have p1 : 0 ≤ (1 / (N:ℝ)) ^ 2 := by positivity
  have p2 : 0 ≤ (1 / (k:ℝ)) ^ 2 := by positivity
  rw [show 0.075 / (N:ℝ) ^ 2 + 0.065 / (k:ℝ) ^ 2 + 1.5e-9 = 0.075 * (1 / N) ^ 2 + 0.065 * (1 / k) ^ 2 + 1.5e-9 by ring]
  clear_value E M
  generalize (1 / (N:ℝ)) ^ 2 = X at *
  generalize (1 / (N:ℝ)) ^ 4 = Y at *
  generalize (1 / (k:ℝ)) ^ 2 = Z at *
  generalize (1 / (k:ℝ)) ^ 4 = U at *
  rw [div_eq_mul_inv]
  norm_num at n1 n2 f1 f2 ⊢
  linarith

end

namespace Example

/-- C114 for 100 slabs, `100³` hexahedra and data on a union of cells: there is exactly one solution, and its squared misfit is at most
`1.5e-5`.  (The squared norm of the wave is about `0.03`.) -/
theorem fit3 (k : ℕ) (hk : 0 < k) (e : k = 100) (p : (Grid.unit 2 k hk).Cell → Prop) [DecidablePred p] : ∃ B om', construct LinearMap.id
      { Script.d3.args (Grid.unit 2 k hk).sol3 (Grid.unit 2 k hk).dsol3 with N := 100 }
        ⟨fun I => if p I then (Grid.unit 2 k hk).space.one I else 0, false⟩ = (.ok B, om') ∧
    ∃ w₁ A x, scriptSetup (cfg3N 100 B) (freshWorld fun _ => 0) = (.ok .rhs, w₁) ∧ (cfg3N 100 B).Returns false A ∧ A.UniquelySolvable ∧
      (∀ d < A.size, A.mult x d = w₁.heap .rhs d) ∧
      Spec.misfit (Grid.unit 2 k hk).space (cfg3N 100 B).D (fun I => if p I then (Grid.unit 2 k hk).space.one I else 0) (Grid.unit 2 k hk).sol3
        ((cfg3N 100 B).full.field (cfg3N 100 B).fe x) ≤ 1.5e-5 := by
  have hf := (Grid.unit 2 k hk).fraction_union p
  generalize (fun I => if p I then (Grid.unit 2 k hk).space.one I else 0) = ind at *
  have hkR : (k:ℝ) = 100 := by exact_mod_cast e
  obtain ⟨B, om', hb, hC, hB⟩ := built3N (k := k) (hk := hk) (N := 100) (by norm_num) ind
  refine ⟨B, om', hb, ?_⟩
  obtain ⟨w₁, h, -⟩ := scriptSetup_run (C := cfg3N 100 B) (freshWorld_fresh fun _ => 0) (freshWorld_noFail _)
  obtain ⟨v₀, ops, v₁, g₀, hops, hA'⟩ := returns (cfg3N 100 B) false
  have hi : (cfg3N 100 B).D.ind = ind := by
    obtain ⟨b, -, e⟩ := construct_facts hb
    rw [hB.D, e]; simp [builtOf]
  have hU := (C102_solve_3d (C := cfg3N 100 B) (N := 100) hb (by norm_num) (by rw [hkR]; norm_num) hC hB rfl (by rw [hi]; exact hf.nonneg)
    (Grid.q1_primal _) (Grid.q1_indep _) g₀ ops hops hA').2
  obtain ⟨x, hx, -⟩ := hU (w₁.heap .rhs)
  have key := C114_solve_3d (C := cfg3N 100 B) hb hf (by norm_num) (by omega) (by norm_num) (by rw [hkR]; norm_num) hC hB rfl rfl
    (freshWorld_fresh _) h ⟨v₀, ops, v₁, g₀, hops, hA'⟩ x hx
  refine ⟨w₁, _, x, h, ⟨v₀, ops, v₁, g₀, hops, hA'⟩, hU, hx, key.trans ?_⟩
  rw [hkR]
  norm_num

end Example
end Dxss
