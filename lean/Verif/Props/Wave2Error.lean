import Verif.Lemmas.TriMesh
import Verif.Lemmas.TriMode
import Verif.Props.Standing
import Verif.Props.TwoD

/-!
# Property C112: solve_2d.py with data everywhere reconstructs its wave
-/

namespace Dxss
open Finset Real AnaD

namespace Tri
variable {m : Tri} {hm hM δ R : ℝ}

theorem path2_eq : m.path2 = standing (√2 * π) (m.fn (sines 1)) := by
  have e : ∀ c : ℝ, m.fn (sines c) = c • m.fn (sines 1) := fun c =>
    funext fun K => Subtype.ext (funext fun x => by change c * _ = c * (1 * _); rw [one_mul])
  have e1 : m.sol2 = fun t => sa (√2 * π) t • m.fn (sines 1) := funext fun t => e _
  have e2 : m.dsol2 = fun t => sb (√2 * π) t • m.fn (sines 1) := by
    funext t
    unfold dsol2
    rw [e, neg_mul]; rfl
  unfold path2 standing
  rw [e1, e2]
  congr 1
  exact funext fun t => e _

/-- The sample solution of solve_2d.py as a standing wave, with its interpolant. -/
theorem mode2 (hb : m.Bounds hm hM δ R) (ht : m.Tiles) (hs : m.BdSquare) : Mode m.space m.flux (√2 * π) (m.fn (sines 1)) (m.pw (sines 1))
    (1 / 4) ((2 * π ^ 2 * hM ^ 2) ^ 2) (2 * π ^ 2) (2 * (4 * π ^ 2 * hM ^ 3 / δ) ^ 2) (12 * (hM ^ 2 / δ) * π ^ 2)
    (12 * (hM ^ 2 / δ) * (4 * π ^ 2 * hM ^ 3 / δ) ^ 2) (24 * (hM ^ 2 / δ) * (4 * π ^ 2 * hM ^ 3 / δ) ^ 2) (hM ^ 2) := by
  have hw := sol2_wave hs {0}
  have hz : ∀ x, m.OnBoundary x → (sines 1 : AnaD 2).1 x = 0 := fun x hx => by
    have := hw.zero 0 rfl x hx
    simpa using this
  have hW := C109_solution hw (Y := ⊥) (by rintro y rfl; exact fun e e' _ s _ => rfl)
  have e0 : (m.path (fun t => AnaD.sines (Real.cos (√2 * Real.pi * t))) (fun t => AnaD.sines (-√2 * Real.pi * Real.sin (√2 * Real.pi * t)))
    (fun t => AnaD.sines (-(√2 * Real.pi) ^ 2 * Real.cos (√2 * Real.pi * t)))).u1 0 = m.fn (sines 1) := by
      change m.fn (AnaD.sines (Real.cos (√2 * Real.pi * 0))) = _
      rw [mul_zero, cos_zero]
  refine { pos := by positivity, psd := m.space_psd fun K s t _ _ _ => zero_le_one, flux_nonneg := flux_nonneg, flux := flux_bound,
           massS := ?_, massE := mass_le ht fun K s t a b c => (pw_err hb sin_bd2 K a b c).1, stiffS := stiff_le ht sin_grad2,
           stiffE := stiff_le ht (pw_grad hb sin_bd2),
           fluxS := flux_le' hb ht sin_grad2, fluxE := flux_le' hb ht (pw_grad hb sin_bd2), penS := ?_, penE := ?_,
           ghostS := ?_, ghostE := ghost_le hb ht (pw_grad hb sin_bd2), lapS := ?_, lapI := pw_lap _, h2 := fun v => (h2_le hb v).2, κ := sq_nonneg _,
           omega := omega_one, massI := ?_, one := ht.one }
  · rw [ht.sines]; norm_num
  · have := hW.dirichlet 0 rfl (m.fn (sines 1))
    rwa [e0] at this
  · rw [space_pen]
    refine sum_eq_zero fun e _ => ?_
    split
    · rename_i he
      have : m.edgeL2 e ((m.fn (sines 1) - m.pw (sines 1)) e.1) ((m.fn (sines 1) - m.pw (sines 1)) e.1) = AnaD.segInt (Tri.src e) (Tri.tgt e) 0 := by
        refine AnaD.segInt_congr fun s h0 h1 => ?_
        have z : ((m.fn (sines 1) - m.pw (sines 1)) e.1).1 (segPt (src e) (tgt e) s) = 0 := by
          change (sines 1 : AnaD 2).1 _ - (m.pw (sines 1) e.1).1 _ = 0
          have a0 : segPt (src e) (tgt e) 0 = src e := funext fun c => by unfold segPt; ring
          have a1 : segPt (src e) (tgt e) 1 = tgt e := funext fun c => by unfold segPt; ring
          rw [pw_edge, hz _ ⟨e, he, s, ⟨h0, h1⟩, rfl⟩, hz _ ⟨e, he, 0, by simp, a0.symm⟩, hz _ ⟨e, he, 1, by simp, a1.symm⟩]
          ring
        change _ * _ = (0:ℝ)
        rw [z, zero_mul]
      rw [this, map_zero, mul_zero]
    · rfl
  · have := hW.smooth 0 rfl (m.fn (sines 1))
    rwa [e0] at this
  · have := hw.eq (t := 0) rfl
    rw [mul_zero, cos_zero, mul_one] at this
    rw [← this]
    exact funext fun K => Subtype.ext (funext fun x => by
      change -(√2 * π) ^ 2 * _ = -(√2 * π) ^ 2 * (1 * _); rw [one_mul])
  · exact (mass_le ht fun K s t a b c => pw_abs sin_abs K a b c).trans (by norm_num)

/-- The numbers of solve_2d.py. -/
theorem mode2_numbers {D : Disc m.Broken} (hl : D.lam = 45) (hp : D.gPrimal = 1e-3) (hd : D.gDual = 1) (h0 : 0 < D.dt)
    (hdt : D.dt ≤ 1 / 100) (hb : m.Bounds hm hM δ R) {ρ : ℝ} (hρ : hM ^ 2 ≤ ρ * δ) (hρ1 : 1 ≤ ρ) (hρ2 : ρ ≤ 1000) (hh1 : hM ≤ 1 / 100) :
    modeDens D (√2 * π) (1 / 4) ((2 * π ^ 2 * hM ^ 2) ^ 2) (2 * π ^ 2) (2 * (4 * π ^ 2 * hM ^ 3 / δ) ^ 2) (12 * (hM ^ 2 / δ) * π ^ 2)
      (12 * (hM ^ 2 / δ) * (4 * π ^ 2 * hM ^ 3 / δ) ^ 2) (24 * (hM ^ 2 / δ) * (4 * π ^ 2 * hM ^ 3 / δ) ^ 2) (hM ^ 2)
      ≤ 1020 * D.dt ^ 2 + (6300 * ρ ^ 2 + 910 * ρ ^ 3) * hM ^ 2 ∧
    modeErr D (√2 * π) (1 / 4) ((2 * π ^ 2 * hM ^ 2) ^ 2) ≤ 3.1 * D.dt ^ 4 + 780 * hM ^ 4 := by
  have hh0 : 0 < hM := hb.hm0.trans_le hb.le
  have hδ := hb.δ0
  obtain ⟨r, hr⟩ : ∃ r : ℝ, r = hM ^ 2 / δ := ⟨_, rfl⟩
  have r0 : 0 ≤ r := by rw [hr]; positivity
  have rρ : r ≤ ρ := by rw [hr, div_le_iff₀ hδ]; exact hρ
  have eG : 4 * π ^ 2 * hM ^ 3 / δ = 4 * π ^ 2 * r * hM := by rw [hr]; ring
  rw [eG, ← hr]
  obtain ⟨h, hh⟩ : ∃ h : ℝ, h = hM := ⟨_, rfl⟩
  rw [← hh] at hh0 hh1 ⊢
  have p1 : π ≤ 3.1416 := by have := pi_lt_d4; linarith
  have p0 := pi_pos
  have s1 : √2 ≤ 1.41422 := by rw [sqrt_le_left (by norm_num)]; norm_num
  have s0 : 0 < √2 := by positivity
  have s2 : √2 ^ 2 = 2 := sq_sqrt (by norm_num)
  have p2 : π ^ 2 ≤ 9.86966 := (pow_le_pow_left₀ p0.le p1 2).trans (by norm_num)
  have p3 : π ^ 3 ≤ 31.0066 := (pow_le_pow_left₀ p0.le p1 3).trans (by norm_num)
  have p4 : (π ^ 2) ^ 2 ≤ 97.4102 := (pow_le_pow_left₀ (by positivity) p2 2).trans (by norm_num)
  have w2 : (√2 * π) ^ 2 ≤ 19.73932 := by rw [mul_pow, s2]; linarith
  have w3 : (√2 * π) ^ 3 ≤ 87.701 := by
    have e : (√2 * π) ^ 3 = √2 ^ 2 * (√2 * π ^ 3) := by ring
    rw [e, s2]
    have := mul_le_mul s1 p3 (by positivity) (by norm_num : (0:ℝ) ≤ 1.41422)
    norm_num at this ⊢
    linarith
  have w4 : ((√2 * π) ^ 2) ^ 2 ≤ 389.65 := (pow_le_pow_left₀ (by positivity) w2 2).trans (by norm_num)
  have w4' : (√2 * π) ^ 4 ≤ 389.65 := by rw [show (√2 * π) ^ 4 = ((√2 * π) ^ 2) ^ 2 by ring]; exact w4
  have w20 : 0 ≤ (√2 * π) ^ 2 := by positivity
  have w30 : 0 ≤ (√2 * π) ^ 3 := by positivity
  set W2 := (√2 * π) ^ 2
  set W3 := (√2 * π) ^ 3
  obtain ⟨t, ht⟩ : ∃ t, t = D.dt := ⟨_, rfl⟩
  unfold modeDens modeErr
  rw [hl, hp, hd]
  rw [← ht] at h0 hdt ⊢
  have x1 : t ^ 2 ≤ 1e-4 := (pow_le_pow_left₀ h0.le hdt 2).trans (by norm_num)
  have y1 : h ^ 2 ≤ 1e-4 := (pow_le_pow_left₀ hh0.le hh1 2).trans (by norm_num)
  have x0 : 0 < t ^ 2 := by positivity
  have y0 : 0 < h ^ 2 := by positivity
  have x4 : t ^ 4 ≤ 1e-4 * t ^ 2 := by rw [show t ^ 4 = t ^ 2 * t ^ 2 by ring]; exact mul_le_mul_of_nonneg_right x1 x0.le
  have y4 : h ^ 4 ≤ 1e-4 * h ^ 2 := by rw [show h ^ 4 = h ^ 2 * h ^ 2 by ring]; exact mul_le_mul_of_nonneg_right y1 y0.le
  have x40 : 0 < t ^ 4 := by positivity
  have y40 : 0 < h ^ 4 := by positivity
  have mE : (2 * π ^ 2 * h ^ 2) ^ 2 ≤ 389.65 * h ^ 4 := by
    rw [show (2 * π ^ 2 * h ^ 2) ^ 2 = 4 * ((π ^ 2) ^ 2 * h ^ 4) by ring]
    have := mul_le_mul_of_nonneg_right p4 y40.le
    norm_num at this ⊢
    linarith
  have mE0 : 0 ≤ (2 * π ^ 2 * h ^ 2) ^ 2 := by positivity
  set ME := (2 * π ^ 2 * h ^ 2) ^ 2
  have g2 : (4 * π ^ 2 * r * h) ^ 2 ≤ 1558.57 * (ρ ^ 2 * h ^ 2) := by
    rw [show (4 * π ^ 2 * r * h) ^ 2 = 16 * ((π ^ 2) ^ 2 * (r ^ 2 * h ^ 2)) by ring]
    have a : r ^ 2 * h ^ 2 ≤ ρ ^ 2 * h ^ 2 := mul_le_mul_of_nonneg_right (pow_le_pow_left₀ r0 rρ 2) y0.le
    have := mul_le_mul p4 a (by positivity) (by norm_num)
    have q : 0 ≤ ρ ^ 2 * h ^ 2 := by positivity
    norm_num at this ⊢
    linarith
  have g0 : 0 ≤ (4 * π ^ 2 * r * h) ^ 2 := by positivity
  set G := (4 * π ^ 2 * r * h) ^ 2
  have rG : r * G ≤ 1558.57 * (ρ ^ 3 * h ^ 2) := by
    have := mul_le_mul rρ g2 g0 (by linarith)
    refine this.trans (le_of_eq ?_)
    ring
  have a4 : (W3 * t / 2) ^ 2 ≤ 1922.9 * t ^ 2 := by
    rw [show (W3 * t / 2) ^ 2 = W3 ^ 2 / 4 * t ^ 2 by ring]
    refine mul_le_mul_of_nonneg_right ?_ x0.le
    have := pow_le_pow_left₀ w30 w3 2
    norm_num at this ⊢
    linarith
  have a1 : (W2 * t ^ 2 / 8) ^ 2 ≤ 6.09 * t ^ 4 := by
    rw [show (W2 * t ^ 2 / 8) ^ 2 = W2 ^ 2 / 64 * t ^ 4 by ring]
    refine mul_le_mul_of_nonneg_right ?_ x40.le
    norm_num at w4 ⊢
    linarith
  have a10 : 0 ≤ (W2 * t ^ 2 / 8) ^ 2 := by positivity
  have a3 : (W2 * t / 2 + W3 * t ^ 2 / 8) ^ 2 ≤ 99.7 * t ^ 2 := by
    have b : W2 * t / 2 + W3 * t ^ 2 / 8 ≤ 9.981 * t := by
      have b1 := mul_le_mul_of_nonneg_right w2 h0.le
      have b2 : W3 * (t * t) ≤ 87.701 * (1 / 100 * t) :=
        mul_le_mul w3 (mul_le_mul_of_nonneg_right hdt h0.le) (by positivity) (by norm_num)
      have e : W2 * t / 2 + W3 * t ^ 2 / 8 = W2 * t / 2 + W3 * (t * t) / 8 := by ring
      rw [e]
      norm_num at b1 b2 ⊢
      linarith
    refine (pow_le_pow_left₀ (by positivity) b 2).trans ?_
    rw [mul_pow]
    exact mul_le_mul_of_nonneg_right (by norm_num) x0.le
  have a30 : 0 ≤ (W2 * t / 2 + W3 * t ^ 2 / 8) ^ 2 := by positivity
  set A4 := (W3 * t / 2) ^ 2
  set A1 := (W2 * t ^ 2 / 8) ^ 2
  set A3 := (W2 * t / 2 + W3 * t ^ 2 / 8) ^ 2
  have mE' : ME ≤ 4e-6 := by
    have : h ^ 4 ≤ 1e-8 := (pow_le_pow_left₀ hh0.le hh1 4).trans (by norm_num)
    norm_num at this mE ⊢
    linarith
  have t2 : W2 ^ 2 * ME ≤ 389.65 * (389.65 * h ^ 4) := mul_le_mul w4 mE mE0 (by norm_num)
  have t3 : A1 * (2 * π ^ 2) ≤ 6.09 * t ^ 4 * 19.74 := mul_le_mul a1 (by norm_num at p2 ⊢; linarith) (by positivity) (by positivity)
  have t5 : A1 * (12 * r * π ^ 2) ≤ 6.09 * t ^ 4 * 118436 := by
    have : r * π ^ 2 ≤ 1000 * 9.86966 := mul_le_mul (rρ.trans hρ2) p2 (by positivity) (by norm_num)
    exact mul_le_mul a1 (by norm_num at this ⊢; linarith) (by positivity) (by positivity)
  have t6 : A3 * ME ≤ 99.7 * t ^ 2 * 4e-6 := mul_le_mul a3 mE' mE0 (by positivity)
  have tk : h ^ 2 * (2 * (2 * (A4 * (1 / 4)) + 2 * (W2 ^ 2 * ME)) + 2 * ((√2 * π) ^ 4 * (1 / 4))) ≤ h ^ 2 * 300 := by
    refine mul_le_mul_of_nonneg_left ?_ (by positivity)
    norm_num at t2 y4 y1 x1 a4 w4' ⊢
    linarith
  have q1 : h ^ 2 ≤ ρ ^ 2 * h ^ 2 := le_mul_of_one_le_left y0.le (one_le_pow₀ hρ1)
  have e1 : 12 * r * G = 12 * (r * G) := by ring
  have e2 : 24 * r * G = 24 * (r * G) := by ring
  have e3 : (6300 * ρ ^ 2 + 910 * ρ ^ 3) * h ^ 2 = 6300 * (ρ ^ 2 * h ^ 2) + 910 * (ρ ^ 3 * h ^ 2) := by ring
  have q3 : 0 ≤ ρ ^ 3 * h ^ 2 := by positivity
  rw [e1, e2, e3]
  generalize ρ ^ 3 * h ^ 2 = X3 at *
  generalize ρ ^ 2 * h ^ 2 = X2 at *
  constructor
  · norm_num at t2 t3 t5 t6 tk g2 rG x4 y4 a4 a3 ⊢
    linarith
  · norm_num at a1 mE ⊢
    linarith

end Tri
/-! ## C112 -/

theorem final_cos : 0.264 ≤ |cos (√2 * π)| := by
  have s0 : 1.4142 ≤ √2 := le_sqrt_of_sq_le (by norm_num)
  have s1 : √2 ≤ 1.41422 := by rw [sqrt_le_left (by norm_num)]; norm_num
  have p0 := pi_gt_d4
  have p1 := pi_lt_d4
  have e : cos (√2 * π) = -sin (3 / 2 * π - √2 * π) := by
    rw [show 3 / 2 * π - √2 * π = π / 2 - (√2 * π - π) by ring, sin_pi_div_two_sub, cos_sub_pi, neg_neg]
  set y := 3 / 2 * π - √2 * π with hy
  have y0 : 0.2694 ≤ y := by rw [hy]; nlinarith
  have y1 : y ≤ 0.2697 := by rw [hy]; nlinarith
  have := sin_gt_sub_cube (x := y) (by linarith)
  have c : y ^ 3 ≤ 0.0197 := (pow_le_pow_left₀ (by linarith) y1 3).trans (by norm_num)
  rw [e, abs_neg]
  refine le_trans ?_ (le_abs_self _)
  norm_num at y0 c ⊢
  linarith

section
variable {m : Tri} {hm hM δ R : ℝ} {N : ℤ} {interp : m.Broken →ₗ[ℝ] m.Broken} {om' : DataDomain m.Broken} {B : Built m.Broken} {C : Cfg m.Broken}

/-- C112: solve_2d.py with `N` time slabs on any triangulation of the unit square with edges of length at most `hM`, with data on the whole
square and a data domain which is not fitted to the mesh (so that its indicator is not lost, C35).  The triangles may be as flat as the
number `ρ` allows: the square of the longest edge is at most `ρ` times twice the area of any triangle.  If a vector solves the linear
system, the error `measured_errors` reports for the displacement, at the final time and over time, is small for small `1/N` and `hM`. -/
theorem C112_error (hb : construct interp { Script.d2.args m.sol2 m.dsol2 with N := N } ⟨m.space.one, false⟩ = (.ok B, om'))
    (hN : 100 ≤ N) (hsize : (N : ℝ) ≤ 1e13) (ht : m.Tiles) (hsq : m.BdSquare) (hbd : m.Bounds hm hM δ R) {ρ : ℝ} (hρ : hM ^ 2 ≤ ρ * δ)
    (hρ1 : 1 ≤ ρ) (hρ2 : ρ ≤ 1000) (hh : hM ≤ 1 / 100) (hC : C.Ok) (hB : C.OfBuilt B) (hS : C.S = m.space) (hfe : C.fe = m.cg 3 3)
    {w₀ : World m.Broken} (h₀ : w₀.Fresh) {r : Ref} {w₁ : World m.Broken}
    (h : scriptSetup C w₀ = (.ok r, w₁)) {A : Mat} (hA : C.Returns false A)
    {z₀ : World m.Broken} (hz : z₀.Fresh) (ops : List (Op m.Broken)) (x : InVec)
    (hx : ∀ d < A.size, A.mult ((runOps C ops z₀).heap x.ref) d = w₁.heap r d)
    {rep : ErrDict} {z₁ : World m.Broken} (hrep : measuredErrors C x.ref (runOps C ops z₀) = (.ok rep, z₁)) :
    let bound := √(30 / N + (205 * ρ ^ 2 + 27 * ρ ^ 3) * (N * hM ^ 2) + 2.5e-7 * N) + 2 / N ^ 2 + 28 * hM ^ 2
    rep.l2T ≤ bound ∧ rep.linfU ≤ bound := by
  intro bound
  have hD := twoD_data hb (by omega) hB
  obtain ⟨b, -, eB⟩ := construct_facts hb
  have hNR : (100:ℝ) ≤ N := by exact_mod_cast hN
  have hN0 : (0:ℝ) < N := by linarith
  have hDN : (C.D.N : ℝ) = N := by
    rw [hD.N]
    exact_mod_cast Int.toNat_of_nonneg (by omega : 0 ≤ N)
  have hdata : C.D.gData = 1e4 := by rw [hB.D, eB]; rfl
  have hsol : C.D.sol = (standing (√2 * π) (m.fn (sines 1))).u1 := by
    rw [← Tri.path2_eq, hB.D, eB]; rfl
  have hdt := hD.pos.dt
  have hdt1 : C.D.dt ≤ 1 / 100 := by
    rw [hD.dt]
    exact one_div_le_one_div_of_le (by norm_num) (by linarith)
  have hu : Spec.WaveSolution m.space C.fe.dual (standing (√2 * π) (m.fn (sines 1))) (Set.Icc 0 (C.D.N * C.D.dt)) := by
    rw [hfe, ← Tri.path2_eq]
    exact C109_solution (Tri.sol2_wave hsq _) fun y hy => (m.mem_lagrange.1 (by rwa [Tri.cg_dual] at hy)).2
  have key := C105_standing_wave hb (show 0 < N by omega) (by norm_num [Script.args, Script.T]) hC hB hS m.space_definite hD.pos
    (by rw [hdata]; norm_num) (by rw [hD.lam]; norm_num) (by rw [hD.q]; norm_num) hD.q.le hD.qstar.le hD.wp hD.fw (by
      rw [hdata, hD.dual, hD.dt]
      have : (1e-13:ℝ) ≤ 1 / N := by
        rw [le_div_iff₀ hN0]; norm_num at hsize ⊢; linarith
      have := pow_le_pow_left₀ (by norm_num) this 2
      norm_num at this ⊢
      linarith) (Tri.mode2 hbd ht hsq) (by rw [hfe, Tri.cg_primal]; exact Tri.pw_mem _ (by norm_num)) hu hsol h₀ h hA hz ops x hx hrep
  obtain ⟨n1, n2⟩ := Tri.mode2_numbers (D := C.D) hD.lam hD.primal hD.dual hdt hdt1 hbd hρ hρ1 hρ2 hh
  rw [hdata, hDN] at key
  set E := modeDens C.D (√2 * π) (1 / 4) _ _ _ _ _ _ _
  set M := modeErr C.D (√2 * π) (1 / 4) _
  have hM0 : 0 < hM := hbd.hm0.trans_le hbd.le
  rw [hD.dt] at n1 n2
  have q0 : 0 < (1 / (N:ℝ)) ^ 2 := by positivity
  have q4 : (1 / (N:ℝ)) ^ 4 ≤ 1e-4 * (1 / N) ^ 2 := by
    have : (1 / (N:ℝ)) ^ 2 ≤ 1e-4 := (pow_le_pow_left₀ (by positivity) (one_div_le_one_div_of_le (by norm_num) hNR) 2).trans (by norm_num)
    rw [show (1 / (N:ℝ)) ^ 4 = (1 / N) ^ 2 * (1 / N) ^ 2 by ring]
    exact mul_le_mul_of_nonneg_right this q0.le
  have y0 : 0 < hM ^ 2 := by positivity
  have y4 : hM ^ 4 ≤ 1e-4 * hM ^ 2 := by
    have : hM ^ 2 ≤ 1e-4 := (pow_le_pow_left₀ hM0.le hh 2).trans (by norm_num)
    rw [show hM ^ 4 = hM ^ 2 * hM ^ 2 by ring]
    exact mul_le_mul_of_nonneg_right this y0.le
  have b1 : 96 * (N:ℝ) * (3 * (E / 1e4 + M) + 2.5e-9) ≤ 30 / N + (205 * ρ ^ 2 + 27 * ρ ^ 3) * (N * hM ^ 2) + 2.5e-7 * N := by
    have q1 : hM ^ 2 ≤ ρ ^ 2 * hM ^ 2 := le_mul_of_one_le_left y0.le (one_le_pow₀ hρ1)
    have q3 : 0 ≤ ρ ^ 3 * hM ^ 2 := by positivity
    have c1 : 96 * (3 * (E / 1e4 + M)) ≤ 30 * (1 / N) ^ 2 + 205 * (ρ ^ 2 * hM ^ 2) + 27 * (ρ ^ 3 * hM ^ 2) := by
      rw [show (6300 * ρ ^ 2 + 910 * ρ ^ 3) * hM ^ 2 = 6300 * (ρ ^ 2 * hM ^ 2) + 910 * (ρ ^ 3 * hM ^ 2) by ring] at n1
      clear_value E M
      generalize (1 / (N:ℝ)) ^ 2 = X at *
      generalize (1 / (N:ℝ)) ^ 4 = Y at *
      generalize ρ ^ 2 * hM ^ 2 = Z at *
      generalize ρ ^ 3 * hM ^ 2 = U at *
      norm_num at n1 n2 q4 y4 ⊢
      linarith
    have c2 := mul_le_mul_of_nonneg_left c1 hN0.le
    have e : (N:ℝ) * (30 * (1 / N) ^ 2 + 205 * (ρ ^ 2 * hM ^ 2) + 27 * (ρ ^ 3 * hM ^ 2))
        = 30 / N + (205 * ρ ^ 2 + 27 * ρ ^ 3) * (N * hM ^ 2) := by
      field_simp
      ring
    rw [e] at c2
    have : (2.4e-7:ℝ) * N ≤ 2.5e-7 * N := mul_le_mul_of_nonneg_right (by norm_num) hN0.le
    have e2 : 96 * (N:ℝ) * (3 * (E / 1e4 + M) + 2.5e-9) = N * (96 * (3 * (E / 1e4 + M))) + 2.4e-7 * N := by ring
    rw [e2]
    linarith
  have b2 : √M ≤ 2 / N ^ 2 + 28 * hM ^ 2 := by
    rw [sqrt_le_left (by positivity)]
    have e : (2 / (N:ℝ) ^ 2 + 28 * hM ^ 2) ^ 2 = 4 * (1 / N) ^ 4 + 112 * (1 / N ^ 2 * hM ^ 2) + 784 * hM ^ 4 := by field_simp; ring
    have : 0 < (1 / (N:ℝ)) ^ 4 := by positivity
    have : 0 < hM ^ 4 := by positivity
    have : 0 < 1 / (N:ℝ) ^ 2 * hM ^ 2 := by positivity
    rw [e]
    clear_value M
    generalize (1 / (N:ℝ)) ^ 4 = Y at *
    generalize 1 / (N:ℝ) ^ 2 * hM ^ 2 = Z at *
    norm_num at n2 ⊢
    linarith
  have b3 := add_le_add (sqrt_le_sqrt b1) b2
  rw [← add_assoc] at b3
  exact ⟨key.1.trans b3, key.2.trans b3⟩

/-- C112: with data everywhere the linear system has exactly one solution for every right hand side, on every triangulation. -/
theorem C112_unique (hb : construct interp { Script.d2.args m.sol2 m.dsol2 with N := N } ⟨m.space.one, false⟩ = (.ok B, om'))
    (hN : 0 < N) (hsize : (N : ℝ) ≤ 1e13) (hC : C.Ok) (hB : C.OfBuilt B) (hS : C.S = m.space) (hi : C.fe.Indep)
    {w₀ : World m.Broken} (h₀ : w₀.Fresh) (ops : List (Op m.Broken)) (hops : ∀ op ∈ ops, ¬ op.OtherFlag false) {A : Mat} {w₁ : World m.Broken}
    (h : getSpacetimeMatrix C false (runOps C ops w₀) = (.ok A, w₁)) : A.size = C.full.size ∧ A.UniquelySolvable := by
  have hD := twoD_data hb hN hB
  obtain ⟨b, -, eB⟩ := construct_facts hb
  have hdata : C.D.gData = 1e4 := by rw [hB.D, eB]; rfl
  have hind : C.D.ind = m.space.one := by rw [hB.D, eB]; simp [builtOf]
  have hPsd : C.S.Psd C.D.ind := by rw [hS, hind]; exact m.space_psd fun K s t _ _ _ => zero_le_one
  have hNR : (0:ℝ) < N := by exact_mod_cast hN
  have hlam : 0 < C.D.lam := by rw [hD.lam]; norm_num
  have hdet : C.Determined (1 / C.D.gData) := by
    intro u _
    have p := hPsd.pen u; have g := hPsd.ghost u
    have e : C.S.omega C.D.ind u u = C.S.mass u u := by rw [hS, hind, Tri.omega_one]
    have hp := hD.pos.primal
    have : 0 ≤ C.D.gPrimal * (C.D.lam * C.S.pen u u + C.S.ghost u u) := by positivity
    rw [e, one_div, ← div_eq_inv_mul, le_div_iff₀ (by rw [hdata]; norm_num)]
    linarith
  refine C68_observable_unique_solution hC hPsd (hS ▸ m.space_definite) hD.pos hi
    (C68_full_data_observe hC hPsd (hS ▸ m.space_definite) hD.pos (by rw [hdata]; norm_num) hdet (by rw [hD.N]; omega)) ?_ h₀ ops hops h
  rw [hdata, hD.dt, hD.q, hD.qstar, hD.dual, one_mul]
  rw [lt_div_iff₀ hNR]
  have e : 1 / 1e4 * ((((3:ℕ):ℝ) + 1) ^ 2 / (1 / N)) * ((1e-20) ^ 2 * (((3:ℕ):ℝ) + 1) ^ 2) * N = 2.56e-42 * (N:ℝ) ^ 2 := by
    field_simp; norm_num
  rw [e]
  have := pow_le_pow_left₀ hNR.le hsize 2
  norm_num at this ⊢
  linarith

/-- C112: consequently, for triangulations without flat triangles (`ρ ≤ 2`, for example right isosceles or equilateral ones) with edges
shorter than a twentieth of the time step, and `8000 ≤ N ≤ 18000`, the error at the final time is at most 62 percent of the norm of the wave
there, and the error over time at most 17 percent of the norm of the wave at time zero.  For the script as it is both are at least 99
percent (C111). -/
theorem C112_reconstruct (hb : construct interp { Script.d2.args m.sol2 m.dsol2 with N := N } ⟨m.space.one, false⟩ = (.ok B, om'))
    (hN : 8000 ≤ N) (hN' : N ≤ 18000) (ht : m.Tiles) (hsq : m.BdSquare) (hbd : m.Bounds hm hM δ R) (hρ : hM ^ 2 ≤ 2 * δ)
    (hh : hM ≤ 1 / (20 * N)) (hC : C.Ok) (hB : C.OfBuilt B) (hS : C.S = m.space) (hfe : C.fe = m.cg 3 3)
    {w₀ : World m.Broken} (h₀ : w₀.Fresh) {r : Ref} {w₁ : World m.Broken}
    (h : scriptSetup C w₀ = (.ok r, w₁)) {A : Mat} (hA : C.Returns false A)
    {z₀ : World m.Broken} (hz : z₀.Fresh) (ops : List (Op m.Broken)) (x : InVec)
    (hx : ∀ d < A.size, A.mult ((runOps C ops z₀).heap x.ref) d = w₁.heap r d)
    {rep : ErrDict} {z₁ : World m.Broken} (hrep : measuredErrors C x.ref (runOps C ops z₀) = (.ok rep, z₁)) :
    rep.l2T ≤ 0.62 * C.S.norm (C.D.sol C.T) ∧ rep.linfU ≤ 0.17 * C.S.norm (C.D.sol 0) := by
  have h1 : (8000:ℝ) ≤ N := by exact_mod_cast hN
  have h2 : (N:ℝ) ≤ 18000 := by exact_mod_cast hN'
  have h0 : (0:ℝ) < N := by linarith
  have hM0 : 0 < hM := hbd.hm0.trans_le hbd.le
  have hsmall : 1 / (20 * (N:ℝ)) ≤ 1 / 160000 := one_div_le_one_div_of_le (by norm_num) (by linarith)
  have key := C112_error hb (by omega) (h2.trans (by norm_num)) ht hsq hbd hρ (by norm_num) (by norm_num) (hh.trans (hsmall.trans (by norm_num)))
    hC hB hS hfe h₀ h hA hz ops x hx hrep
  have hM2 : hM ^ 2 ≤ (1 / (20 * (N:ℝ))) ^ 2 := pow_le_pow_left₀ hM0.le hh 2
  have c1 : (N:ℝ) * hM ^ 2 ≤ 1 / 400 * (1 / N) := by
    have := mul_le_mul_of_nonneg_left hM2 h0.le
    refine this.trans (le_of_eq ?_)
    field_simp
    norm_num
  have c2 : √(30 / N + (205 * 2 ^ 2 + 27 * 2 ^ 3) * (N * hM ^ 2) + 2.5e-7 * N) ≤ 0.08 := by
    rw [sqrt_le_left (by norm_num)]
    have : 30 / (N:ℝ) + (205 * 2 ^ 2 + 27 * 2 ^ 3) * (N * hM ^ 2) ≤ 32.59 / N := by
      have e : 30 / (N:ℝ) + 2.59 * (1 / N) = 32.59 / N := by ring
      rw [← e]
      norm_num at c1 ⊢
      linarith
    have : 32.59 / (N:ℝ) + 2.5e-7 * N ≤ 0.0064 := by
      rw [div_add' _ _ _ h0.ne', div_le_iff₀ h0]
      norm_num
      nlinarith [mul_nonneg (sub_nonneg.2 h1) (sub_nonneg.2 h2)]
    norm_num at *
    linarith
  have c3 : 2 / (N:ℝ) ^ 2 + 28 * hM ^ 2 ≤ 1e-6 := by
    have a : (1 / (20 * (N:ℝ))) ^ 2 ≤ (1 / 160000) ^ 2 := pow_le_pow_left₀ (by positivity) hsmall 2
    have b : 2 / (N:ℝ) ^ 2 ≤ 2 / 8000 ^ 2 := div_le_div_of_nonneg_left (by norm_num) (by norm_num) (pow_le_pow_left₀ (by norm_num) h1 2)
    have a := hM2.trans a
    norm_num at a b ⊢
    linarith
  have bnd : √(30 / N + (205 * 2 ^ 2 + 27 * 2 ^ 3) * (N * hM ^ 2) + 2.5e-7 * N) + 2 / N ^ 2 + 28 * hM ^ 2 ≤ 0.0801 := by
    rw [add_assoc]
    exact (add_le_add c2 c3).trans (by norm_num)
  obtain ⟨b, -, e⟩ := construct_facts hb
  have hsol : C.D.sol = m.sol2 := by rw [hB.D, e]; rfl
  have hT : C.T = 1 := by rw [hB.T, e]; simp [builtOf, Script.args, Script.T]
  have hn : ∀ t, C.S.norm (C.D.sol t) = |cos (√2 * π * t)| / 2 := by
    intro t
    rw [hsol, hS]
    change √(m.space.mass (m.fn (AnaD.sines _)) (m.fn (AnaD.sines _))) = _
    rw [ht.sines, sqrt_div (sq_nonneg _), sqrt_sq_eq_abs]
    congr 1
    rw [show (4:ℝ) = 2 ^ 2 by norm_num, sqrt_sq (by norm_num)]
  rw [hn, hn, hT, mul_one, mul_zero, cos_zero, abs_one]
  have := final_cos
  constructor
  · refine key.1.trans (bnd.trans ?_)
    norm_num at this ⊢
    linarith
  · refine key.2.trans (bnd.trans ?_)
    norm_num

end

namespace Example
open Tri

section
variable {k : ℕ} {hk : 0 < k}

/-- The 2D script with `N` slabs. -/
noncomputable def cfg2N {m : Tri} (N : ℤ) (B : Built m.Broken) : Cfg m.Broken where
  S := m.space
  D := B.D
  fe := m.cg 3 3
  full := stdSpace (fullSizes 3 3 N.toNat) (m.cg 3 3).m
  slab := stdSpace (slabSizes 3 3) (m.cg 3 3).m
  coup := stdSpace couplingSizes (m.cg 3 3).m
  bnd := stdSpace bndSizes (m.cg 3 3).m
  pts := [-1, -0.575319, 0.181066, 0.822824].map fun pt : ℝ => 0.5 * (1 - 0) * pt + 0.5 * (1 + 0)
  ws := [0.125, 0.657689, 0.776387, 0.440924].map fun w : ℝ => 0.5 * 1 * w
  T := B.T
  dsol := B.dsol
  ptsHo := [-1, -0.72048, -0.167181, 0.446314, 0.885792].map fun pt : ℝ => 0.5 * (1 - 0) * pt + 0.5 * (1 + 0)
  wsHo := [0.08, 0.446208, 0.623653, 0.562712, 0.287427].map fun w : ℝ => 0.5 * 1 * w
  samples := B.samples

theorem built2N {m : Tri} {N : ℤ} (hN : 0 < N) (ind : m.Broken) (f : Bool) : ∃ B om', construct LinearMap.id
      { Script.d2.args m.sol2 m.dsol2 with N := N } ⟨ind, f⟩ = (.ok B, om') ∧
    (cfg2N N B).Ok ∧ (cfg2N N B).OfBuilt B := by
  obtain ⟨b, -, e⟩ := construct_run (interp := LinearMap.id)
    (a := { Script.d2.args m.sol2 m.dsol2 with N := N }) (om := ⟨ind, f⟩) hN.ne'
    (Script.d2.supported m.sol2 m.dsol2)
  have hdt : (builtOf LinearMap.id { Script.d2.args m.sol2 m.dsol2 with N := N } ⟨ind, f⟩ b).D.dt = 1 / N := by
    simp [builtOf, Script.args, Script.T]
  have hNR : (N:ℝ) ≠ 0 := by exact_mod_cast hN.ne'
  refine ⟨_, _, e, ?_, ?_⟩
  · refine ⟨⟨getElmatTime_ok ?_ ?_, ?_⟩, stdSpace_ok _ _, rfl, stdSpace_ok _ _, rfl, stdSpace_ok _ _, rfl,
      stdSpace_ok _ _, rfl⟩
    · simp [cfg2N, builtOf, Script.args, Script.otime, Script.order]
    · simp [cfg2N, builtOf, Script.args, Script.otime, Script.order]
    · rw [cfg2N, hdt]; exact div_ne_zero (by norm_num) hNR
  · constructor <;> simp [cfg2N, builtOf, QuadRule.currentPts, QuadRule.tWeights, gaussRadau]

/-- C112 for 10000 slabs and a unit square divided into `2 · 300000²` triangles: the system has a solution, and `measured_errors` returns
small errors for it. -/
theorem solve2N (e : k = 300000) : ∃ B om', construct LinearMap.id
      { Script.d2.args (squares k hk).sol2 (squares k hk).dsol2 with N := 10000 } ⟨(squares k hk).space.one, false⟩ = (.ok B, om') ∧
    ∃ w₁ A x ops rep z₁, scriptSetup (cfg2N 10000 B) (freshWorld fun _ => 0) = (.ok .rhs, w₁) ∧ (cfg2N 10000 B).Returns false A ∧
      (∀ d < A.size, A.mult x d = w₁.heap .rhs d) ∧ A.UniquelySolvable ∧
      (runOps (cfg2N 10000 B) ops (freshWorld fun _ => 0)).heap (.user 1) = x ∧
      measuredErrors (cfg2N 10000 B) (.user 1) (runOps (cfg2N 10000 B) ops (freshWorld fun _ => 0)) = (.ok rep, z₁) ∧
      rep.l2T ≤ 0.62 * (cfg2N 10000 B).S.norm ((cfg2N 10000 B).D.sol (cfg2N 10000 B).T) ∧
      rep.linfU ≤ 0.17 * (cfg2N 10000 B).S.norm ((cfg2N 10000 B).D.sol 0) := by
  obtain ⟨B, om', hb, hC, hB⟩ := built2N (m := squares k hk) (N := 10000) (by norm_num) (squares k hk).space.one false
  refine ⟨B, om', hb, ?_⟩
  obtain ⟨w₁, h, -⟩ := scriptSetup_run (C := cfg2N 10000 B) (freshWorld_fresh fun _ => 0) (freshWorld_noFail _)
  obtain ⟨v₀, ops, v₁, g₀, hops, hA'⟩ := returns (cfg2N 10000 B) false
  have hU := (C112_unique (C := cfg2N 10000 B) hb (by norm_num) (by norm_num) hC hB rfl ((squares k hk).cg_indep 3 3) g₀ ops hops hA').2
  obtain ⟨x, hx, -⟩ := hU (w₁.heap .rhs)
  have hz : (runOps (cfg2N 10000 B) [.setupFE, .write 1 x] (freshWorld fun _ => 0)).heap (.user 1) = x :=
    runOps_write (cfg2N 10000 B) [.setupFE] 1 x (freshWorld fun _ => 0)
  have hMe : (cfg2N 10000 B).Meas := Meas.of_construct hb (by norm_num) (by norm_num [Script.args, Script.T])
    ⟨hB.D, hB.T, hB.dsol, hB.samples, hB.ptsHo, hB.wsHo⟩
  have hPsd := (squares k hk).space_psd (i := 0) fun K s t _ _ _ => le_rfl
  obtain ⟨rep, z₁, hr⟩ := C42_returns hMe hPsd.mass (freshWorld_fresh fun _ => 0) (freshWorld_noFail fun _ => 0) [.write 1 x] (.user 1)
  have hkR : (k:ℝ) = 300000 := by exact_mod_cast e
  have s2 : √2 ≤ (1.41422:ℝ) := by rw [sqrt_le_left (by norm_num)]; norm_num
  obtain ⟨n1, n2⟩ := C112_reconstruct (C := cfg2N 10000 B) hb (by norm_num) (by norm_num) squares_tiles squares_bd squares_bounds
    (by rw [mul_pow, sq_sqrt (by norm_num)]; exact le_of_eq (by ring)) (by rw [hkR]; norm_num at s2 ⊢; linarith) hC hB rfl rfl
    (freshWorld_fresh _) h ⟨v₀, ops, v₁, g₀, hops, hA'⟩ (freshWorld_fresh _) [.setupFE, .write 1 x] (.user 1) (by rw [← hz] at hx; exact hx) hr
  exact ⟨w₁, _, x, _, rep, z₁, h, ⟨v₀, ops, v₁, g₀, hops, hA'⟩, hx, hU, hz, hr, n1, n2⟩

end
end Example
end Dxss
