import Verif.Lemmas.SineBox
import Verif.Props.Standing
import Verif.Props.Wave3

/-!
# Property C105: solve_3d.py with data everywhere reconstructs its wave
-/

namespace Dxss
open Finset Real

namespace Grid
variable {k : ℕ} {hk : 0 < k}

theorem path3_eq : (unit 2 k hk).path3 = standing (√3 * π) (boxS hk) := by
  have e : (unit 2 k hk).dsol3 = fun t => sb (√3 * π) t • boxS hk := by
    funext t
    change (-√3 * π * sin (√3 * π * t)) • (boxS hk : (unit 2 k hk).Broken) = _
    rw [neg_mul]; rfl
  unfold path3 standing
  rw [e]
  rfl

/-- The sample solution of solve_3d.py as a standing wave, with its interpolant. -/
theorem mode3 : Mode (unit 2 k hk).space (unit 2 k hk).flux (√3 * π) (boxS hk) (boxI hk) (1 / 8) ((3 * (π ^ 2 * (1 / k) ^ 2 / 8)) ^ 2)
    (3 * π ^ 2) (3 * gradE 2 k ^ 2) (3 * (2 * √3 * π ^ 2)) (3 * (2 * √3 * gradE 2 k ^ 2)) (3 * (4 * 3 * √3 * gradE 2 k ^ 2)) (3 * (1 / k) ^ 2) := by
  have e3 : ((2:ℕ):ℝ) + 1 = 3 := by norm_num
  have m := mass_boxE (n := 2) (hk := hk)
  have s1 := stiff_boxS (n := 2) (hk := hk)
  have s2 := stiff_boxE (n := 2) (hk := hk)
  have f1 := flux_le (n := 2) (hk := hk) (v := boxS hk) fun b I y _ => sin_grad b I y
  have f2 := flux_le (n := 2) (hk := hk) (v := boxS hk - boxI hk) fun b I y hy => err_grad b I hy
  have g2 := ghost_le (n := 2) (hk := hk) (v := boxS hk - boxI hk) fun b I y hy => err_grad b I hy
  rw [e3] at m s1 s2 f1 f2 g2
  refine { pos := by positivity, psd := space_psd _ fun I y _ => zero_le_one, flux_nonneg := flux_nonneg _, flux := flux_bound _,
           massS := ?_, massE := m, stiffS := s1, stiffE := s2, fluxS := f1, fluxE := f2, penS := pen_boxS _, penE := ?_,
           ghostS := ghost_boxS _, ghostE := g2, lapS := ?_, lapI := lap_interp _ _, h2 := fun v => ?_, κ := by positivity,
           omega := omega_unit, massI := mass_boxI, one := unit_one }
  · rw [mass_boxS]; norm_num
  · have e : (unit 2 k hk).space.pen (boxS hk - boxI hk) (boxS hk - boxI hk)
        = (unit 2 k hk).space.pen (boxS hk) (boxS hk - boxI hk) - (unit 2 k hk).space.pen (boxI hk) (boxS hk - boxI hk) := by
      rw [map_sub (unit 2 k hk).space.pen (boxS hk) (boxI hk)]; rfl
    rw [e, pen_boxS, pen_boxI, sub_zero]
  · rw [lap_boxS, e3, mul_pow, sq_sqrt (by norm_num)]
  · exact le_of_eq (by rw [h2_unit, e3])

/-- The numbers of solve_3d.py. -/
theorem mode3_numbers {D : Disc (unit 2 k hk).Broken} (h5 : D.lam = 5) (hp : D.gPrimal = 1e-3) (hd : D.gDual = 1) (h0 : 0 < D.dt)
    (hdt : D.dt ≤ 1 / 200) (hk1 : 100 ≤ k) :
    modeDens D (√3 * π) (1 / 8) ((3 * (π ^ 2 * (1 / k) ^ 2 / 8)) ^ 2) (3 * π ^ 2) (3 * gradE 2 k ^ 2) (3 * (2 * √3 * π ^ 2))
        (3 * (2 * √3 * gradE 2 k ^ 2)) (3 * (4 * 3 * √3 * gradE 2 k ^ 2)) (3 * (1 / k) ^ 2) ≤ 1700 * D.dt ^ 2 + 265 * (1 / k) ^ 2 ∧
    modeErr D (√3 * π) (1 / 8) ((3 * (π ^ 2 * (1 / k) ^ 2 / 8)) ^ 2) ≤ 4 * D.dt ^ 4 + 28 * (1 / k) ^ 4 := by
  have hkR : (100:ℝ) ≤ k := by exact_mod_cast hk1
  obtain ⟨h, hh⟩ : ∃ h : ℝ, h = 1 / k := ⟨_, rfl⟩
  have hh0 : 0 < h := by rw [hh]; positivity
  have hh1 : h ≤ 1 / 100 := by rw [hh]; exact one_div_le_one_div_of_le (by norm_num) hkR
  simp only [gradE, ← hh]
  have p1 : π ≤ 3.1416 := by have := pi_lt_d4; linarith
  have p0 := pi_pos
  have r1 : √3 ≤ 1.7321 := by rw [sqrt_le_left (by norm_num)]; norm_num
  have r0 : 0 < √3 := by positivity
  have r2 : √3 ^ 2 = 3 := sq_sqrt (by norm_num)
  have p2 : π ^ 2 ≤ 9.86966 := (pow_le_pow_left₀ p0.le p1 2).trans (by norm_num)
  have p3 : π ^ 3 ≤ 31.0066 := (pow_le_pow_left₀ p0.le p1 3).trans (by norm_num)
  have w2 : (√3 * π) ^ 2 ≤ 29.61 := by rw [mul_pow, r2]; linarith
  have w3 : (√3 * π) ^ 3 ≤ 161.2 := by
    have e : (√3 * π) ^ 3 = √3 ^ 2 * (√3 * π ^ 3) := by ring
    rw [e, r2]
    have := mul_le_mul r1 p3 (by positivity) (by norm_num : (0:ℝ) ≤ 1.7321)
    norm_num at this ⊢
    linarith
  have w4 : ((√3 * π) ^ 2) ^ 2 ≤ 877 := (pow_le_pow_left₀ (by positivity) w2 2).trans (by norm_num)
  have w4' : (√3 * π) ^ 4 ≤ 877 := by rw [show (√3 * π) ^ 4 = ((√3 * π) ^ 2) ^ 2 by ring]; exact w4
  have w20 : 0 ≤ (√3 * π) ^ 2 := by positivity
  have w30 : 0 ≤ (√3 * π) ^ 3 := by positivity
  set W2 := (√3 * π) ^ 2
  set W3 := (√3 * π) ^ 3
  obtain ⟨t, ht⟩ : ∃ t, t = D.dt := ⟨_, rfl⟩
  unfold modeDens modeErr
  rw [h5, hp, hd]
  rw [← ht] at h0 hdt ⊢
  have x1 : t ^ 2 ≤ 2.5e-5 := (pow_le_pow_left₀ h0.le hdt 2).trans (by norm_num)
  have y1 : h ^ 2 ≤ 1e-4 := (pow_le_pow_left₀ hh0.le hh1 2).trans (by norm_num)
  have x0 : 0 < t ^ 2 := by positivity
  have y0 : 0 < h ^ 2 := by positivity
  have x4 : t ^ 4 ≤ 2.5e-5 * t ^ 2 := by rw [show t ^ 4 = t ^ 2 * t ^ 2 by ring]; exact mul_le_mul_of_nonneg_right x1 x0.le
  have y4 : h ^ 4 ≤ 1e-4 * h ^ 2 := by rw [show h ^ 4 = h ^ 2 * h ^ 2 by ring]; exact mul_le_mul_of_nonneg_right y1 y0.le
  have x40 : 0 < t ^ 4 := by positivity
  have y40 : 0 < h ^ 4 := by positivity
  have mE : (3 * (π ^ 2 * h ^ 2 / 8)) ^ 2 ≤ 13.71 * h ^ 4 := by
    rw [show (3 * (π ^ 2 * h ^ 2 / 8)) ^ 2 = 9 / 64 * ((π ^ 2) ^ 2 * h ^ 4) by ring]
    have : (π ^ 2) ^ 2 ≤ 97.4102 := (pow_le_pow_left₀ (by positivity) p2 2).trans (by norm_num)
    have := mul_le_mul_of_nonneg_right this y40.le
    norm_num at this ⊢
    linarith
  have mE0 : 0 ≤ (3 * (π ^ 2 * h ^ 2 / 8)) ^ 2 := by positivity
  set ME := (3 * (π ^ 2 * h ^ 2 / 8)) ^ 2
  have g1 : π ^ 2 * h / 2 + (2:ℕ) * (π * (π ^ 2 * h ^ 2 / 8)) ≤ 5.0125 * h := by
    have a1 := mul_le_mul_of_nonneg_right p2 hh0.le
    have a2 : π ^ 3 * (h * h) ≤ 31.0066 * (1 / 100 * h) :=
      mul_le_mul p3 (mul_le_mul_of_nonneg_right hh1 hh0.le) (by positivity) (by norm_num)
    have e : π ^ 2 * h / 2 + (2:ℕ) * (π * (π ^ 2 * h ^ 2 / 8)) = π ^ 2 * h / 2 + π ^ 3 * (h * h) / 4 := by push_cast; ring
    rw [e]
    norm_num at a1 a2 ⊢
    linarith
  have g2 : (π ^ 2 * h / 2 + (2:ℕ) * (π * (π ^ 2 * h ^ 2 / 8))) ^ 2 ≤ 25.1252 * h ^ 2 := by
    refine (pow_le_pow_left₀ (by positivity) g1 2).trans ?_
    rw [mul_pow]
    exact mul_le_mul_of_nonneg_right (by norm_num) y0.le
  have g0 : 0 ≤ (π ^ 2 * h / 2 + (2:ℕ) * (π * (π ^ 2 * h ^ 2 / 8))) ^ 2 := by positivity
  set G := (π ^ 2 * h / 2 + (2:ℕ) * (π * (π ^ 2 * h ^ 2 / 8))) ^ 2
  have G3 : √3 * G ≤ 1.7321 * (25.1252 * h ^ 2) := mul_le_mul r1 g2 g0 (by norm_num)
  have P3 : √3 * π ^ 2 ≤ 1.7321 * 9.86966 := mul_le_mul r1 p2 (by positivity) (by norm_num)
  have a4 : (W3 * t / 2) ^ 2 ≤ 6496.36 * t ^ 2 := by
    rw [show (W3 * t / 2) ^ 2 = W3 ^ 2 / 4 * t ^ 2 by ring]
    refine mul_le_mul_of_nonneg_right ?_ x0.le
    have := pow_le_pow_left₀ w30 w3 2
    norm_num at this ⊢
    linarith
  have a1 : (W2 * t ^ 2 / 8) ^ 2 ≤ 13.71 * t ^ 4 := by
    rw [show (W2 * t ^ 2 / 8) ^ 2 = W2 ^ 2 / 64 * t ^ 4 by ring]
    refine mul_le_mul_of_nonneg_right ?_ x40.le
    norm_num at w4 ⊢
    linarith
  have a10 : 0 ≤ (W2 * t ^ 2 / 8) ^ 2 := by positivity
  have a3 : (W2 * t / 2 + W3 * t ^ 2 / 8) ^ 2 ≤ 223 * t ^ 2 := by
    have b : W2 * t / 2 + W3 * t ^ 2 / 8 ≤ 14.91 * t := by
      have b1 := mul_le_mul_of_nonneg_right w2 h0.le
      have b2 : W3 * (t * t) ≤ 161.2 * (1 / 200 * t) :=
        mul_le_mul w3 (mul_le_mul_of_nonneg_right hdt h0.le) (by positivity) (by norm_num)
      have e : W2 * t / 2 + W3 * t ^ 2 / 8 = W2 * t / 2 + W3 * (t * t) / 8 := by ring
      rw [e]
      norm_num at b1 b2 ⊢
      linarith
    refine (pow_le_pow_left₀ (by positivity) b 2).trans ?_
    rw [mul_pow]
    exact mul_le_mul_of_nonneg_right (by norm_num) x0.le
  have a30 : 0 ≤ (W2 * t / 2 + W3 * t ^ 2 / 8) ^ 2 := by positivity
  set A4 := (W3 * t / 2) ^ 2
  set A1 := (W2 * t ^ 2 / 8) ^ 2
  set A3 := (W2 * t / 2 + W3 * t ^ 2 / 8) ^ 2
  have mE' : ME ≤ 1e-6 := by
    have : h ^ 4 ≤ 1e-8 := (pow_le_pow_left₀ hh0.le hh1 4).trans (by norm_num)
    norm_num at this mE ⊢
    linarith
  have t2 : W2 ^ 2 * ME ≤ 877 * (13.71 * h ^ 4) := mul_le_mul w4 mE mE0 (by norm_num)
  have t3 : A1 * (3 * π ^ 2) ≤ 13.71 * t ^ 4 * 29.61 := mul_le_mul a1 (by linarith) (by positivity) (by positivity)
  have t5 : A1 * (3 * (2 * √3 * π ^ 2)) ≤ 13.71 * t ^ 4 * 103 :=
    mul_le_mul a1 (by norm_num at P3; linarith) (by positivity) (by positivity)
  have t6 : A3 * ME ≤ 223 * t ^ 2 * 1e-6 := mul_le_mul a3 mE' mE0 (by positivity)
  have tk : 3 * h ^ 2 * (2 * (2 * (A4 * (1 / 8)) + 2 * (W2 ^ 2 * ME)) + 2 * ((√3 * π) ^ 4 * (1 / 8))) ≤ 3 * h ^ 2 * 230 := by
    refine mul_le_mul_of_nonneg_left ?_ (by positivity)
    norm_num at t2 y4 y1 x1 a4 w4' ⊢
    linarith
  constructor
  · norm_num at t2 t3 t5 t6 tk G3 x4 y4 a4 a3 ⊢
    linarith
  · norm_num at a1 mE ⊢
    linarith

end Grid

/-! ## C105 -/

theorem final_bound' : 0.306 ≤ √(cos (√3 * π * (1 / 2)) ^ 2 / 8) := by
  have r1 : 5 / 3 ≤ √3 := le_sqrt_of_sq_le (by norm_num)
  have r2 : √3 ≤ 2 := by rw [sqrt_le_left (by norm_num)]; norm_num
  have p := pi_pos
  have h1 : cos (√3 * π * (1 / 2)) ≤ cos (π - π / 6) :=
    cos_le_cos_of_nonneg_of_le_pi (by linarith) (by nlinarith) (by nlinarith)
  rw [cos_pi_sub, cos_pi_div_six] at h1
  have h2 : (√3 / 2) ^ 2 ≤ cos (√3 * π * (1 / 2)) ^ 2 := by
    rw [← neg_sq (cos _)]
    exact pow_le_pow_left₀ (by positivity) (by linarith) 2
  rw [div_pow, sq_sqrt (by norm_num)] at h2
  refine le_sqrt_of_sq_le ?_
  norm_num at h2 ⊢
  linarith

section
variable {k : ℕ} {hk : 0 < k} {N : ℤ} {interp : (Grid.unit 2 k hk).Broken →ₗ[ℝ] (Grid.unit 2 k hk).Broken}
  {om' : DataDomain (Grid.unit 2 k hk).Broken} {B : Built (Grid.unit 2 k hk).Broken} {C : Cfg (Grid.unit 2 k hk).Broken}

/-- C105: solve_3d.py with `N` time slabs on a mesh with `k ≥ N` cells in each direction, with data on the whole box and a data domain
which is not fitted to the mesh (so that its indicator is not lost, C35).  If a vector solves the linear system, the error
`measured_errors` reports for the displacement, at the final time and over time, is at most `√(21/N + N/(4·10⁶)) + 6/N²`. -/
theorem C105_error (hb : construct interp { Script.d3.args (Grid.unit 2 k hk).sol3 (Grid.unit 2 k hk).dsol3 with N := N }
      ⟨(Grid.unit 2 k hk).space.one, false⟩ = (.ok B, om')) (hN : 100 ≤ N) (hNk : N ≤ k) (hsize : (N : ℝ) ≤ 1e13) (hC : C.Ok) (hB : C.OfBuilt B)
    (hS : C.S = (Grid.unit 2 k hk).space) (hfe : C.fe = (Grid.unit 2 k hk).q1)
    {w₀ : World (Grid.unit 2 k hk).Broken} (h₀ : w₀.Fresh) {r : Ref} {w₁ : World (Grid.unit 2 k hk).Broken}
    (h : scriptSetup C w₀ = (.ok r, w₁)) {A : Mat} (hA : C.Returns false A)
    {z₀ : World (Grid.unit 2 k hk).Broken} (hz : z₀.Fresh) (ops : List (Op (Grid.unit 2 k hk).Broken)) (x : InVec)
    (hx : ∀ d < A.size, A.mult ((runOps C ops z₀).heap x.ref) d = w₁.heap r d)
    {rep : ErrDict} {z₁ : World (Grid.unit 2 k hk).Broken} (hrep : measuredErrors C x.ref (runOps C ops z₀) = (.ok rep, z₁)) :
    rep.l2T ≤ √(21 / N + 2.5e-7 * N) + 6 / N ^ 2 ∧ rep.linfU ≤ √(21 / N + 2.5e-7 * N) + 6 / N ^ 2 := by
  have hD := threeD_data hb (by omega) hB
  obtain ⟨b, -, eB⟩ := construct_facts hb
  have hNR : (100:ℝ) ≤ N := by exact_mod_cast hN
  have hN0 : (0:ℝ) < N := by linarith
  have hNkR : (N:ℝ) ≤ k := by exact_mod_cast hNk
  have hDN : (C.D.N : ℝ) = N := by
    rw [hD.N]
    exact_mod_cast Int.toNat_of_nonneg (by omega : 0 ≤ N)
  have hdata : C.D.gData = 1e4 := by rw [hB.D, eB]; rfl
  have hsol : C.D.sol = (standing (√3 * π) (Grid.boxS hk : (Grid.unit 2 k hk).Broken)).u1 := by rw [hB.D, eB]; rfl
  have hdt := hD.pos.dt
  have hdt1 : C.D.dt ≤ 1 / 200 := by
    rw [hD.dt, div_div]
    exact one_div_le_one_div_of_le (by norm_num) (by linarith)
  have hu : Spec.WaveSolution (Grid.unit 2 k hk).space C.fe.dual (standing (√3 * π) (Grid.boxS hk)) (Set.Icc 0 (C.D.N * C.D.dt)) := by
    rw [hfe, ← Grid.path3_eq]
    exact C104_solution (Grid.sol3_wave _) (Grid.q1_conforming _)
  have key := C105_standing_wave hb (show 0 < N by omega) (by norm_num [Script.args, Script.T]) hC hB hS (Grid.space_definite _) hD.pos
    (by rw [hdata]; norm_num) (by rw [hD.lam]; norm_num) hD.q.ge (by rw [hD.q]; norm_num) (by rw [hD.qstar]; norm_num) hD.wp hD.fw (by
      rw [hdata, hD.dual, hD.dt]
      have : (1e-13:ℝ) ≤ 1 / N := by
        rw [le_div_iff₀ hN0]; norm_num at hsize ⊢; linarith
      have := pow_le_pow_left₀ (by norm_num) this 2
      have e : (1e4:ℝ) * 1 * (1 / 2 / N) ^ 2 = 2500 * (1 / N) ^ 2 := by ring
      rw [e]
      norm_num at this ⊢
      linarith) Grid.mode3 (by rw [hfe]; exact Grid.boxI_mem hk) hu hsol h₀ h hA hz ops x hx hrep
  obtain ⟨n1, n2⟩ := Grid.mode3_numbers (D := C.D) hD.lam hD.primal hD.dual hdt hdt1 (by omega)
  rw [hdata, hDN] at key
  set E := modeDens C.D (√3 * π) (1 / 8) _ _ _ _ _ _ _
  set M := modeErr C.D (√3 * π) (1 / 8) _
  have hk2 : (1 / (k:ℝ)) ^ 2 ≤ (1 / N) ^ 2 := pow_le_pow_left₀ (by positivity) (one_div_le_one_div_of_le hN0 hNkR) 2
  have hk4 : (1 / (k:ℝ)) ^ 4 ≤ (1 / N) ^ 4 := pow_le_pow_left₀ (by positivity) (one_div_le_one_div_of_le hN0 hNkR) 4
  have e2 : C.D.dt ^ 2 = 1 / 4 * (1 / N) ^ 2 := by rw [hD.dt]; ring
  have e4 : C.D.dt ^ 4 = 1 / 16 * (1 / N) ^ 4 := by rw [hD.dt]; ring
  rw [e2] at n1
  rw [e4] at n2
  have q0 : 0 < (1 / (N:ℝ)) ^ 2 := by positivity
  have q4 : (1 / (N:ℝ)) ^ 4 ≤ 1e-4 * (1 / N) ^ 2 := by
    have : (1 / (N:ℝ)) ^ 2 ≤ 1e-4 := (pow_le_pow_left₀ (by positivity) (one_div_le_one_div_of_le (by norm_num) hNR) 2).trans (by norm_num)
    rw [show (1 / (N:ℝ)) ^ 4 = (1 / N) ^ 2 * (1 / N) ^ 2 by ring]
    exact mul_le_mul_of_nonneg_right this q0.le
  have b1 : 96 * (N:ℝ) * (3 * (E / 1e4 + M) + 2.5e-9) ≤ 21 / N + 2.5e-7 * N := by
    have c1 : 3 * (E / 1e4 + M) ≤ 0.2158 * (1 / N) ^ 2 := by
      clear_value E M
      generalize (1 / (N:ℝ)) ^ 2 = X at *
      generalize (1 / (N:ℝ)) ^ 4 = Y at *
      generalize (1 / (k:ℝ)) ^ 2 = Z at *
      generalize (1 / (k:ℝ)) ^ 4 = U at *
      norm_num at n1 n2 q4 ⊢
      linarith
    have c2 := mul_le_mul_of_nonneg_left (add_le_add_left c1 2.5e-9) (by positivity : 0 ≤ 96 * (N:ℝ))
    refine c2.trans ?_
    have e : 96 * (N:ℝ) * (0.2158 * (1 / N) ^ 2 + 2.5e-9) = 20.7168 * (1 / N) + 2.4e-7 * N := by
      field_simp; norm_num; ring
    rw [e, show 21 / (N:ℝ) = 21 * (1 / N) by ring]
    have p : 0 < 1 / (N:ℝ) := by positivity
    have : 20.7168 * (1 / (N:ℝ)) ≤ 21 * (1 / N) := mul_le_mul_of_nonneg_right (by norm_num) p.le
    have : (2.4e-7:ℝ) * N ≤ 2.5e-7 * N := mul_le_mul_of_nonneg_right (by norm_num) hN0.le
    linarith
  have b2 : √M ≤ 6 / N ^ 2 := by
    rw [sqrt_le_left (by positivity)]
    have e : (6 / (N:ℝ) ^ 2) ^ 2 = 36 * (1 / N) ^ 4 := by ring
    have : 0 < (1 / (N:ℝ)) ^ 4 := by positivity
    rw [e]
    linarith
  have b3 := sqrt_le_sqrt b1
  exact ⟨key.1.trans (add_le_add b3 b2), key.2.trans (add_le_add b3 b2)⟩

/-- C105: consequently, for `1000 ≤ N ≤ 85000` slabs the error at the final time is at most half of the norm of the wave — what C103
states, and what fails, for the script as it is. -/
theorem C105_half (hb : construct interp { Script.d3.args (Grid.unit 2 k hk).sol3 (Grid.unit 2 k hk).dsol3 with N := N }
      ⟨(Grid.unit 2 k hk).space.one, false⟩ = (.ok B, om')) (hN : 1000 ≤ N) (hN' : N ≤ 85000) (hNk : N ≤ k) (hC : C.Ok) (hB : C.OfBuilt B)
    (hS : C.S = (Grid.unit 2 k hk).space) (hfe : C.fe = (Grid.unit 2 k hk).q1)
    {w₀ : World (Grid.unit 2 k hk).Broken} (h₀ : w₀.Fresh) {r : Ref} {w₁ : World (Grid.unit 2 k hk).Broken}
    (h : scriptSetup C w₀ = (.ok r, w₁)) {A : Mat} (hA : C.Returns false A)
    {z₀ : World (Grid.unit 2 k hk).Broken} (hz : z₀.Fresh) (ops : List (Op (Grid.unit 2 k hk).Broken)) (x : InVec)
    (hx : ∀ d < A.size, A.mult ((runOps C ops z₀).heap x.ref) d = w₁.heap r d)
    {rep : ErrDict} {z₁ : World (Grid.unit 2 k hk).Broken} (hrep : measuredErrors C x.ref (runOps C ops z₀) = (.ok rep, z₁)) :
    rep.l2T ≤ 1 / 2 * C.S.norm (C.D.sol C.T) := by
  have h1 : (1000:ℝ) ≤ N := by exact_mod_cast hN
  have h2 : (N:ℝ) ≤ 85000 := by exact_mod_cast hN'
  have h0 : (0:ℝ) < N := by linarith
  refine (C105_error hb (by omega) hNk (h2.trans (by norm_num)) hC hB hS hfe h₀ h hA hz ops x hx hrep).1.trans ?_
  obtain ⟨b, -, e⟩ := construct_facts hb
  have e1 : C.D.sol = (Grid.unit 2 k hk).sol3 := by rw [hB.D, e]; rfl
  have e2 : C.T = 1 / 2 := by rw [hB.T, e]; simp [builtOf, Script.args, Script.T]
  rw [hS, e1, e2, unit3_norm]
  have a0 := final_bound'
  have a1 : √(21 / N + 2.5e-7 * N) ≤ 0.1495 := by
    rw [sqrt_le_left (by norm_num)]
    have : 21 / (N:ℝ) + 2.5e-7 * N ≤ 0.0221 := by
      rw [div_add' _ _ _ h0.ne', div_le_iff₀ h0]
      nlinarith
    refine this.trans (by norm_num)
  have a2 : 6 / (N:ℝ) ^ 2 ≤ 0.001 := by
    rw [div_le_iff₀ (by positivity)]
    nlinarith
  norm_num at a0 a1 a2 ⊢
  linarith

end

namespace Example
open Grid

section
variable {k : ℕ} {hk : 0 < k}

/-- The 3D script with `k` cells in each direction and `N` slabs. -/
noncomputable def cfg3N (N : ℤ) (B : Built (Grid.unit 2 k hk).Broken) : Cfg (Grid.unit 2 k hk).Broken where
  S := (Grid.unit 2 k hk).space
  D := B.D
  fe := (Grid.unit 2 k hk).q1
  full := stdSpace (fullSizes 1 1 N.toNat) (Grid.unit 2 k hk).q1.m
  slab := stdSpace (slabSizes 1 1) (Grid.unit 2 k hk).q1.m
  coup := stdSpace couplingSizes (Grid.unit 2 k hk).q1.m
  bnd := stdSpace bndSizes (Grid.unit 2 k hk).q1.m
  pts := [-1, -0.575319, 0.181066, 0.822824].map fun pt : ℝ => 0.5 * (1 - 0) * pt + 0.5 * (1 + 0)
  ws := [0.125, 0.657689, 0.776387, 0.440924].map fun w : ℝ => 0.5 * 1 * w
  T := B.T
  dsol := B.dsol
  ptsHo := [-1, -0.72048, -0.167181, 0.446314, 0.885792].map fun pt : ℝ => 0.5 * (1 - 0) * pt + 0.5 * (1 + 0)
  wsHo := [0.08, 0.446208, 0.623653, 0.562712, 0.287427].map fun w : ℝ => 0.5 * 1 * w
  samples := B.samples

theorem built3N {N : ℤ} (hN : 0 < N) (ind : (Grid.unit 2 k hk).Broken) : ∃ B om', construct LinearMap.id
      { Script.d3.args (Grid.unit 2 k hk).sol3 (Grid.unit 2 k hk).dsol3 with N := N } ⟨ind, false⟩ = (.ok B, om') ∧
    (cfg3N N B).Ok ∧ (cfg3N N B).OfBuilt B := by
  obtain ⟨b, -, e⟩ := construct_run (interp := LinearMap.id)
    (a := { Script.d3.args (Grid.unit 2 k hk).sol3 (Grid.unit 2 k hk).dsol3 with N := N }) (om := ⟨ind, false⟩) hN.ne'
    (Script.d3.supported (Grid.unit 2 k hk).sol3 (Grid.unit 2 k hk).dsol3)
  have hdt : (builtOf LinearMap.id { Script.d3.args (Grid.unit 2 k hk).sol3 (Grid.unit 2 k hk).dsol3 with N := N } ⟨ind, false⟩ b).D.dt
      = 1 / 2 / N := by
    simp [builtOf, Script.args, Script.T]
  have hNR : (N:ℝ) ≠ 0 := by exact_mod_cast hN.ne'
  refine ⟨_, _, e, ?_, ?_⟩
  · refine ⟨⟨getElmatTime_ok ?_ ?_, ?_⟩, stdSpace_ok _ _, rfl, stdSpace_ok _ _, rfl, stdSpace_ok _ _, rfl,
      stdSpace_ok _ _, rfl⟩
    · simp [cfg3N, builtOf, Script.args, Script.otime, Script.order]
    · simp [cfg3N, builtOf, Script.args, Script.otime, Script.order]
    · rw [cfg3N, hdt]; exact div_ne_zero (by norm_num) hNR
  · constructor <;> simp [cfg3N, builtOf, QuadRule.currentPts, QuadRule.tWeights, gaussRadau]

/-- The system of C105 has exactly one solution, and `measured_errors` returns for it. -/
theorem solve3N {N : ℤ} (hN : 0 < N) (hsize : (k : ℝ) * N ≤ 1e16) : ∃ B om', construct LinearMap.id
      { Script.d3.args (Grid.unit 2 k hk).sol3 (Grid.unit 2 k hk).dsol3 with N := N } ⟨(Grid.unit 2 k hk).space.one, false⟩ = (.ok B, om') ∧
    (cfg3N N B).Ok ∧ (cfg3N N B).OfBuilt B ∧
    ∀ heap, ∃ w₁ A x ops, scriptSetup (cfg3N N B) (freshWorld heap) = (.ok .rhs, w₁) ∧ (cfg3N N B).Returns false A ∧
      (∀ d < A.size, A.mult x d = w₁.heap .rhs d) ∧ A.UniquelySolvable ∧ (runOps (cfg3N N B) ops (freshWorld heap)).heap (.user 1) = x ∧
      ∃ rep z₁, measuredErrors (cfg3N N B) (.user 1) (runOps (cfg3N N B) ops (freshWorld heap)) = (.ok rep, z₁) := by
  obtain ⟨B, om', hb, hC, hB⟩ := built3N (k := k) (hk := hk) hN (Grid.unit 2 k hk).space.one
  refine ⟨B, om', hb, hC, hB, fun heap => ?_⟩
  obtain ⟨w₁, h, -⟩ := scriptSetup_run (C := cfg3N N B) (freshWorld_fresh heap) (freshWorld_noFail _)
  obtain ⟨v₀, ops, v₁, g₀, hops, hA'⟩ := returns (cfg3N N B) false
  have hind : (cfg3N N B).D.ind = (Grid.unit 2 k hk).space.one := by
    obtain ⟨b, -, e⟩ := construct_facts hb
    rw [hB.D, e]
    simp [builtOf]
  have h1 : (Grid.unit 2 k hk).Nonneg (cfg3N N B).D.ind := by
    rw [hind]; exact fun I y _ => zero_le_one
  have hU := (C102_solve_3d (C := cfg3N N B) hb hN hsize hC hB rfl h1 (q1_primal _) (q1_indep _) g₀ ops hops hA').2
  obtain ⟨x, hx, -⟩ := hU (w₁.heap .rhs)
  have hz : (runOps (cfg3N N B) [.setupFE, .write 1 x] (freshWorld heap)).heap (.user 1) = x :=
    runOps_write (cfg3N N B) [.setupFE] 1 x (freshWorld heap)
  have hMe : (cfg3N N B).Meas := Meas.of_construct hb hN (by norm_num [Script.args, Script.T])
    ⟨hB.D, hB.T, hB.dsol, hB.samples, hB.ptsHo, hB.wsHo⟩
  obtain ⟨rep, z₁, hr⟩ := C42_returns hMe ((Grid.unit 2 k hk).space_psd h1).mass (freshWorld_fresh heap) (freshWorld_noFail heap)
    [.write 1 x] (.user 1)
  exact ⟨w₁, _, x, _, h, ⟨v₀, ops, v₁, g₀, hops, hA'⟩, hx, hU, hz, rep, z₁, hr⟩

end

/-- C105 for 1000 cells in each direction and 1000 slabs. -/
theorem solve1000 (k : ℕ) (hk : 0 < k) (e : k = 1000) : ∃ B om', construct LinearMap.id
      { Script.d3.args (Grid.unit 2 k hk).sol3 (Grid.unit 2 k hk).dsol3 with N := 1000 } ⟨(Grid.unit 2 k hk).space.one, false⟩ = (.ok B, om') ∧
    ∃ w₁ A x ops rep z₁, scriptSetup (cfg3N 1000 B) (freshWorld fun _ => 0) = (.ok .rhs, w₁) ∧ (cfg3N 1000 B).Returns false A ∧
      (∀ d < A.size, A.mult x d = w₁.heap .rhs d) ∧ A.UniquelySolvable ∧
      (runOps (cfg3N 1000 B) ops (freshWorld fun _ => 0)).heap (.user 1) = x ∧
      measuredErrors (cfg3N 1000 B) (.user 1) (runOps (cfg3N 1000 B) ops (freshWorld fun _ => 0)) = (.ok rep, z₁) ∧
      rep.l2T ≤ 1 / 2 * (cfg3N 1000 B).S.norm ((cfg3N 1000 B).D.sol (cfg3N 1000 B).T) ∧ rep.linfU ≤ 0.15 := by
  have hkR : (k:ℝ) = 1000 := by exact_mod_cast e
  obtain ⟨B, om', hb, hC, hB, h⟩ := solve3N (k := k) (hk := hk) (N := 1000) (by norm_num) (by rw [hkR]; norm_num)
  refine ⟨B, om', hb, ?_⟩
  obtain ⟨w₁, A, x, ops, h1, h2, h3, h4, h5, rep, z₁, h6⟩ := h fun _ => 0
  have hN : (1000:ℤ) ≤ k := by omega
  have hx : ∀ d < A.size, A.mult ((runOps (cfg3N 1000 B) ops (freshWorld fun _ => 0)).heap (InVec.user 1).ref) d = w₁.heap .rhs d := by
    intro d hd
    rw [show (runOps (cfg3N 1000 B) ops (freshWorld fun _ => 0)).heap (InVec.user 1).ref = x from h5]
    exact h3 d hd
  refine ⟨w₁, A, x, ops, rep, z₁, h1, h2, h3, h4, h5, h6, ?_, ?_⟩
  · exact C105_half hb le_rfl (by norm_num) hN hC hB rfl rfl (freshWorld_fresh _) h1 h2 (freshWorld_fresh _) ops (.user 1) hx h6
  · refine (C105_error hb (by norm_num) hN (by norm_num) hC hB rfl rfl (freshWorld_fresh _) h1 h2 (freshWorld_fresh _) ops (.user 1) hx h6).2.trans ?_
    have : √(21 / ((1000:ℤ):ℝ) + 2.5e-7 * ((1000:ℤ):ℝ)) ≤ 0.1495 := by
      rw [sqrt_le_left (by norm_num)]; norm_num
    norm_num at this ⊢
    linarith

end Example
end Dxss
