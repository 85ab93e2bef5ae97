import Verif.Props.Fit
import Verif.Props.Wave2Error

/-!
# Property C114 on triangulations, for the problem of solve_2d.py
-/

namespace Dxss
open Finset Real AnaD

section
variable {m : Tri} {N : ℤ} {interp : m.Broken →ₗ[ℝ] m.Broken} {ind : m.Broken} {om' : DataDomain m.Broken}
  {B : Built m.Broken} {C : Cfg m.Broken} {hm hM δ R : ℝ}

/-- The functions with values in `[0, 1]`, such as indicators of sets. -/
def Tri.Fraction (m : Tri) (i : m.Broken) : Prop :=
  ∀ K s t, 0 ≤ s → 0 ≤ t → s + t ≤ 1 → (i K).1 (refPt (m.v K 0) (m.v K 1) (m.v K 2) s t) ∈ Set.Icc (0:ℝ) 1

theorem Tri.Fraction.nonneg {i : m.Broken} (h : m.Fraction i) : m.Nonneg i := fun K s t a b c => (h K s t a b c).1

theorem Tri.Fraction.le {i : m.Broken} (h : m.Fraction i) (v : m.Broken) : m.space.omega i v v ≤ m.space.mass v v := by
  rw [Tri.space_omega, Tri.space_mass]
  refine sum_le_sum fun K _ => triInt_mono (m.pos K) fun s t a b c => ?_
  change _ * (v K).1 _ * (v K).1 _ ≤ (v K).1 _ * (v K).1 _
  rw [mul_assoc]
  exact mul_le_of_le_one_left (mul_self_nonneg _) (h K s t a b c).2

/-- C114 for solve_2d.py, on any triangulation of the unit square with edges at most 1/100, with `N ≥ 100` slabs and any data domain which
is not lost (C35): the squared misfit of the solution of the linear system is at most `0.35/N² + (3.3ρ² + 0.31ρ³)·h² + 3e-9`, where `h`
is the greatest length of an edge and `ρ` bounds `h²` divided by twice the area of a triangle. -/
theorem C114_solve_2d (hb : construct interp { Script.d2.args m.sol2 m.dsol2 with N := N } ⟨ind, false⟩ = (.ok B, om'))
    (hind : m.Fraction ind) (hN : 100 ≤ N) (hN' : (N:ℝ) ≤ 1e13) (ht : m.Tiles) (hsq : m.BdSquare) (hbd : m.Bounds hm hM δ R) {ρ : ℝ}
    (hρ : hM ^ 2 ≤ ρ * δ) (hρ1 : 1 ≤ ρ) (hρ2 : ρ ≤ 1000) (hh : hM ≤ 1 / 100)
    (hsize : orderConst (triConst hm hM δ R 45) (hM ^ 2) (1 / N) 1e-3 * N ^ 2 ≤ 3e35)
    (hC : C.Ok) (hB : C.OfBuilt B) (hS : C.S = m.space) (hfe : C.fe.primal = m.lagrange 3) (hfd : C.fe.dual ≤ m.lagrange 3)
    {w₀ : World m.Broken} (h₀ : w₀.Fresh) {r : Ref} {w₁ : World m.Broken}
    (h : scriptSetup C w₀ = (.ok r, w₁)) {A : Mat} (hA : C.Returns false A) (x : Vec) (hx : ∀ d < A.size, A.mult x d = w₁.heap r d) :
    Spec.misfit m.space C.D ind m.sol2 (C.full.field C.fe x) ≤ 0.35 / N ^ 2 + (3.3 * ρ ^ 2 + 0.31 * ρ ^ 3) * hM ^ 2 + 3e-9 := by
  have hN0 : 0 < N := by omega
  have hD := twoD_data hb hN0 hB
  obtain ⟨b, -, eB⟩ := construct_facts hb
  have hi : C.D.ind = ind := by rw [hB.D, eB]; simp [builtOf]
  have hsol0 : C.D.sol = m.sol2 := by rw [hB.D, eB]; rfl
  have hsol : C.D.sol = (standing (√2 * π) (m.fn (sines 1))).u1 := by
    rw [← Tri.path2_eq, hB.D, eB]; rfl
  have hdata : C.D.gData = 1e4 := by rw [hB.D, eB]; rfl
  have hNR : (100:ℝ) ≤ N := by exact_mod_cast hN
  have hNR0 : (0:ℝ) < N := by linarith
  have hPsd : C.S.Psd C.D.ind := by rw [hi]; exact hS ▸ m.space_psd hind.nonneg
  have hNpos : 0 < C.D.N := by rw [hD.N]; omega
  have hlam : 0 < C.D.lam := by rw [hD.lam]; norm_num
  have hdt := hD.pos.dt
  have hdt1 : C.D.dt ≤ 1 / 100 := by rw [hD.dt]; exact one_div_le_one_div_of_le (by norm_num) hNR
  have hu : Spec.WaveSolution m.space C.fe.dual (standing (√2 * π) (m.fn (sines 1))) (Set.Icc 0 (C.D.N * C.D.dt)) := by
    rw [← Tri.path2_eq]
    exact C109_solution (Tri.sol2_wave hsq _) fun y hy => (m.mem_lagrange.1 (hfd hy)).2
  have ho := C107_observable hC hPsd (hS ▸ m.space_definite) hD.pos hlam hNpos (triConst_nonneg hbd hlam) (sq_nonneg hM)
    (C110_elliptic hS hlam le_rfl hfe.le hbd) (fun v => by rw [hS]; exact (Tri.h2_le hbd v).2)
  have key := C114_fit hb hC hB hS hPsd (by rw [hi]; exact hind.le) hD.pos (by rw [hdata]; norm_num) hlam hNpos (by rw [hD.q]; norm_num)
    hD.q.le hD.qstar.le hD.wp hD.fw (by
      rw [hdata, hD.dual, hD.dt]
      have : (1e-13:ℝ) ≤ 1 / N := by
        rw [le_div_iff₀ hNR0]; norm_num at hN' ⊢; linarith
      have := pow_le_pow_left₀ (by norm_num) this 2
      norm_num at this ⊢
      linarith) ho (by
      rw [hD.lam, hD.dt, hD.primal, hD.q, hD.qstar, hD.dual, one_mul, mul_one_div, le_div_iff₀ hNR0]
      set X := orderConst (triConst hm hM δ R 45) (hM ^ 2) (1 / N) 1e-3
      have e : X * ((((3:ℕ):ℝ) + 1) ^ 2 / (1 / (N:ℝ))) * ((1e-20) ^ 2 * (((3:ℕ):ℝ) + 1) ^ 2) * N = 2.56e-38 * (X * N ^ 2) := by
        norm_num; ring
      rw [e]
      norm_num at hsize ⊢
      linarith) (Tri.mode2 hbd ht hsq) (by rw [hfe]; exact Tri.pw_mem _ (by norm_num)) hu hsol h₀ h hA x hx
  rw [hS, hi, hsol0] at key
  refine key.trans ?_
  obtain ⟨n1, n2⟩ := Tri.mode2_numbers (D := C.D) hD.lam hD.primal hD.dual hdt hdt1 hbd hρ hρ1 hρ2 hh
  have e0 : (C.D.N : ℝ) * C.D.dt = 1 := by
    have : (C.D.N : ℝ) = N := by
      rw [hD.N]
      exact_mod_cast Int.toNat_of_nonneg (by omega : 0 ≤ N)
    rw [this, hD.dt]; field_simp
  rw [e0, one_mul, hdata]
  set E := modeDens C.D (√2 * π) (1 / 4) _ _ _ _ _ _ _
  set M := modeErr C.D (√2 * π) (1 / 4) _
  have hM0 : 0 < hM := hbd.hm0.trans_le hbd.le
  rw [hD.dt] at n1 n2
  have q0 : 0 < (1 / (N:ℝ)) ^ 2 := by positivity
  have q4 : (1 / (N:ℝ)) ^ 4 ≤ 1e-4 * (1 / N) ^ 2 := by
    have : (1 / (N:ℝ)) ^ 2 ≤ 1e-4 := (pow_le_pow_left₀ (by positivity) (one_div_le_one_div_of_le (by norm_num) hNR) 2).trans (by norm_num)
    rw [show (1 / (N:ℝ)) ^ 4 = (1 / N) ^ 2 * (1 / N) ^ 2 by ring]
    exact mul_le_mul_of_nonneg_right this q0.le
  have y0 : 0 < hM ^ 2 := by positivity
  have y4 : hM ^ 4 ≤ 1e-4 * hM ^ 2 := by
    have : hM ^ 2 ≤ 1e-4 := (pow_le_pow_left₀ hM0.le hh 2).trans (by norm_num)
    rw [show hM ^ 4 = hM ^ 2 * hM ^ 2 by ring]
    exact mul_le_mul_of_nonneg_right this y0.le
  have q1 : hM ^ 2 ≤ ρ ^ 2 * hM ^ 2 := le_mul_of_one_le_left y0.le (one_le_pow₀ hρ1)
  have q3 : 0 ≤ ρ ^ 3 * hM ^ 2 := by positivity
  rw [show (6300 * ρ ^ 2 + 910 * ρ ^ 3) * hM ^ 2 = 6300 * (ρ ^ 2 * hM ^ 2) + 910 * (ρ ^ 3 * hM ^ 2) by ring] at n1
  rw [show 0.35 / (N:ℝ) ^ 2 + (3.3 * ρ ^ 2 + 0.31 * ρ ^ 3) * hM ^ 2 + 3e-9
    = 0.35 * (1 / N) ^ 2 + 3.3 * (ρ ^ 2 * hM ^ 2) + 0.31 * (ρ ^ 3 * hM ^ 2) + 3e-9 by ring]
  clear_value E M
  generalize (1 / (N:ℝ)) ^ 2 = X at *
  generalize (1 / (N:ℝ)) ^ 4 = Y at *
  generalize ρ ^ 2 * hM ^ 2 = Z at *
  generalize ρ ^ 3 * hM ^ 2 = U at *
  rw [div_eq_mul_inv]
  norm_num at n1 n2 q4 y4 ⊢
  linarith

/-- The indicator of a union of triangles is such a function. -/
theorem Tri.fraction_union (m : Tri) (p : Fin m.n → Prop) [DecidablePred p] : m.Fraction fun K => if p K then m.space.one K else 0 := by
  intro K s t _ _ _
  by_cases h : p K
  · simp only [if_pos h]
    exact (⟨zero_le_one, le_rfl⟩ : (1:ℝ) ∈ Set.Icc (0:ℝ) 1)
  · simp only [if_neg h]
    exact (⟨le_rfl, zero_le_one⟩ : (0:ℝ) ∈ Set.Icc (0:ℝ) 1)

end

namespace Example
open Tri

section
variable {k : ℕ} {hk : 0 < k}

theorem squares_size (hk : 0 < k) (e : k = 200) :
    orderConst (triConst (1 / k) (√2 * (1 / k)) (1 / (k:ℝ) ^ 2) (√2) 45) ((√2 * (1 / k)) ^ 2) (1 / (100:ℤ)) 1e-3 * ((100:ℤ):ℝ) ^ 2 ≤ 3e35 := by
  have hkR : (k:ℝ) = 200 := by exact_mod_cast e
  have s1 : √2 ≤ (1.5:ℝ) := by rw [sqrt_le_left (by norm_num)]; norm_num
  have s0 := sqrt_nonneg (2:ℝ)
  have hc : triConst (1 / k) (√2 * (1 / k)) (1 / (k:ℝ) ^ 2) (√2) 45 ≤ 1e8 := by
    unfold triConst
    rw [hkR]
    calc _ ≤ (2 * 1.5 * (1.5 * (1 / 200)) + 120 * 1.5 ^ 2 * (1.5 * (1 / 200)) ^ 2 / (1 / 200 ^ 2)) / 45 + 4 * 1.5 ^ 4 / (1 / 200) ^ 2
          + 120 * (1.5 * (1 / 200)) * 1.5 ^ 4 / (1 / 200 ^ 2 * (1 / 200)) := by gcongr
      _ ≤ (1e8:ℝ) := by norm_num
  have hc0 : 0 ≤ triConst (1 / k) (√2 * (1 / k)) (1 / (k:ℝ) ^ 2) (√2) 45 := triConst_nonneg (squares_bounds (k := k) (hk := hk)) (by norm_num)
  generalize triConst (1 / k) (√2 * (1 / k)) (1 / (k:ℝ) ^ 2) (√2) 45 = c at *
  unfold orderConst
  rw [hkR]
  calc _ ≤ 7 * 1e8 / 1e-3 * (13 + 340 * ((1.5 * (1 / 200)) ^ 2 / (1 / ((100:ℤ):ℝ)) ^ 2)
        + 1e8 * ((1.5 * (1 / 200)) ^ 2 / (1 / ((100:ℤ):ℝ)) ^ 4) * (12528 + 115200 * ((1.5 * (1 / 200)) ^ 2 / (1 / ((100:ℤ):ℝ)) ^ 2)))
          * ((100:ℤ):ℝ) ^ 2 := by gcongr
    _ ≤ _ := by norm_num

/-- C114 for 100 slabs, a unit square divided into `2 · 200²` triangles and data on a union of triangles: there is exactly one solution, and
its squared misfit is less than `1e-3`.  (The squared norm of the wave is about `0.13`.) -/
theorem fit2 (e : k = 200) (p : Fin (squares k hk).n → Prop) [DecidablePred p] : ∃ B om', construct LinearMap.id
      { Script.d2.args (squares k hk).sol2 (squares k hk).dsol2 with N := 100 } ⟨fun K => if p K then (squares k hk).space.one K else 0, false⟩
        = (.ok B, om') ∧
    ∃ w₁ A x, scriptSetup (cfg2N 100 B) (freshWorld fun _ => 0) = (.ok .rhs, w₁) ∧ (cfg2N 100 B).Returns false A ∧ A.UniquelySolvable ∧
      (∀ d < A.size, A.mult x d = w₁.heap .rhs d) ∧
      Spec.misfit (squares k hk).space (cfg2N 100 B).D (fun K => if p K then (squares k hk).space.one K else 0) (squares k hk).sol2
        ((cfg2N 100 B).full.field (cfg2N 100 B).fe x) ≤ 1e-3 := by
  have hf := (squares k hk).fraction_union p
  generalize (fun K => if p K then (squares k hk).space.one K else 0) = ind at *
  obtain ⟨B, om', hb, hC, hB⟩ := built2N (m := squares k hk) (N := 100) (by norm_num) ind false
  refine ⟨B, om', hb, ?_⟩
  obtain ⟨w₁, h, -⟩ := scriptSetup_run (C := cfg2N 100 B) (freshWorld_fresh fun _ => 0) (freshWorld_noFail _)
  obtain ⟨v₀, ops, v₁, g₀, hops, hA'⟩ := returns (cfg2N 100 B) false
  have hi : (cfg2N 100 B).D.ind = ind := by
    obtain ⟨b, -, e⟩ := construct_facts hb
    rw [hB.D, e]; simp [builtOf]
  have hs := squares_size hk e
  have hp : (cfg2N 100 B).fe.primal = (squares k hk).lagrange 3 := (squares k hk).cg_primal 3 3
  have hd : (cfg2N 100 B).fe.dual = (squares k hk).lagrange 3 := (squares k hk).cg_dual 3 3
  have hU := (C110_solve_2d (C := cfg2N 100 B) (N := 100) hb (by norm_num) hC hB rfl (by rw [hi]; exact hf.nonneg) hp.le
    ((squares k hk).cg_indep 3 3) (squares_bounds (k := k) (hk := hk)) (hs.trans (by norm_num)) g₀ ops hops hA').2
  obtain ⟨x, hx, -⟩ := hU (w₁.heap .rhs)
  have hkR : (k:ℝ) = 200 := by exact_mod_cast e
  have s2 : √2 ≤ (1.41422:ℝ) := by rw [sqrt_le_left (by norm_num)]; norm_num
  have key := C114_solve_2d (C := cfg2N 100 B) (ρ := 2) hb hf (by norm_num) (by norm_num) squares_tiles squares_bd (squares_bounds (k := k) (hk := hk))
    (by rw [mul_pow, sq_sqrt (by norm_num)]; exact le_of_eq (by ring)) (by norm_num) (by norm_num)
    (by rw [hkR]; norm_num at s2 ⊢; linarith) hs hC hB rfl hp hd.le (freshWorld_fresh _) h ⟨v₀, ops, v₁, g₀, hops, hA'⟩ x hx
  refine ⟨w₁, _, x, h, ⟨v₀, ops, v₁, g₀, hops, hA'⟩, hU, hx, key.trans ?_⟩
  rw [hkR, mul_pow, sq_sqrt (by norm_num)]
  norm_num

end
end Example
end Dxss
