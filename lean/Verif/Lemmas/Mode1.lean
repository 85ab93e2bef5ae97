import Verif.Lemmas.StandingEnergy
import Verif.Lemmas.Dist1

/-!
# The wave of solve_1d.py as a standing wave, with its linear interpolant
-/

namespace Dxss
open Finset

theorem numbers1_aux {d2 h2 d4 h4 X1 h3 X2 X3 X4 : ℝ} (p : 0 ≤ d2) (q : 0 ≤ h2) (a : d4 ≤ 1 / 1024 * d2) (b : h4 ≤ 1 / 1024 * h2)
    (u1 : X1 ≤ 1 / 32 * d4) (u2 : h3 ≤ 1 / 32 * h2) (u3 : X2 ≤ 1 / 1024 * h4) (u4 : X3 ≤ 1 / 1024 * h2) (u5 : X4 ≤ 1 / 1024 * h4) :
    (124.03 ^ 2 + 1.001 * 20.71 ^ 2) * d2 + (2 * 19.74 ^ 2 + 1e-3 * 3 * 1558.57) * h2
        + 2 * 1558.57 * 4.935 ^ 2 * h4 + 2 * 4.935 ^ 2 * 39.479 * d4 + 1 / 5 * (4 * 4.935 ^ 2 * 39.479) * X1
        + 1 / 5 * (4 * 19.74 ^ 2) * h3 + 1.001 * (2 * 20.71 ^ 2 * 4.935 ^ 2) * X2
        + 1e-3 * (2 * 124.03 ^ 2) * X3 + 1e-3 * (4 * 1558.57 * 4.935 ^ 2) * X4 ≤ 15830 * d2 + 880 * h2 := by
  norm_num
  linarith

section
variable {n : ℕ} (hn : 0 < n)

theorem wave1_standing : wave1 hn = standing tau (sin1 hn) := rfl

/-- The sample solution of solve_1d.py as a standing wave, with its interpolant. -/
theorem mode1 : Mode (Mesh1.unit n hn).space (Mesh1.unit n hn).flux tau (sin1 hn) (sinI hn) (1 / 2) ((tau ^ 2 * (1 / n) ^ 2 / 8) ^ 2)
    (tau ^ 2) ((tau ^ 2 * (1 / n) / 2) ^ 2) (2 * (1 / n) * tau ^ 2) (2 * (1 / n) * (tau ^ 2 * (1 / n) / 2) ^ 2) (tau ^ 4 * (1 / n) ^ 2)
    ((1 / n) ^ 2) where
  pos := tau_bounds.1
  psd := unit_psd hn
  flux_nonneg := (Mesh1.unit n hn).flux_nonneg
  flux := (Mesh1.unit n hn).flux_bound
  massS := (mass_sin1 hn).le
  massE := mass_sinE hn
  stiffS := stiff_sin1 hn
  stiffE := stiff_sinE hn
  fluxS := flux_sin1 hn
  fluxE := flux_sinE hn
  penS := pen_sin1 hn _
  penE := pen_sinE hn _
  ghostS := ghost_sin1 hn _
  ghostE := ghost_sinE hn
  lapS := lap_sin1 hn
  lapI := lap_sinI hn
  h2 v := (h2_unit hn v v).le
  κ := sq_nonneg _
  omega := omega_one1 hn
  massI := mass_sinI hn
  one := by
    refine ((Mesh1.unit n hn).mass_fn _ _).trans ?_
    have e := unit_length hn
    simp [e]

/-- The numbers of solve_1d.py. -/
theorem mode1_numbers {D : Disc (Mesh1.unit n hn).Broken} (hl : 5 ≤ D.lam) (hp : D.gPrimal = 1e-3) (hd : D.gDual = 1) (h0 : 0 < D.dt)
    (h1 : D.dt ≤ 1 / 32) (hn1 : 32 ≤ n) :
    modeDens D tau (1 / 2) ((tau ^ 2 * (1 / n) ^ 2 / 8) ^ 2) (tau ^ 2) ((tau ^ 2 * (1 / n) / 2) ^ 2) (2 * (1 / n) * tau ^ 2)
      (2 * (1 / n) * (tau ^ 2 * (1 / n) / 2) ^ 2) (tau ^ 4 * (1 / n) ^ 2) ((1 / n) ^ 2) ≤ 15830 * D.dt ^ 2 + 880 * (1 / n) ^ 2 ∧
    modeErr D tau (1 / 2) ((tau ^ 2 * (1 / n) ^ 2 / 8) ^ 2) ≤ 25 * D.dt ^ 4 + 49 * (1 / n) ^ 4 := by
  obtain ⟨t2, t3, t4⟩ := tau_pows
  have t0 := tau_bounds.1
  have hn' : (0:ℝ) < n := by exact_mod_cast hn
  have hh1 : 1 / (n:ℝ) ≤ 1 / 32 := one_div_le_one_div_of_le (by norm_num) (by exact_mod_cast hn1)
  obtain ⟨h, hh⟩ : ∃ h : ℝ, h = 1 / n := ⟨_, rfl⟩
  have hh0 : 0 < h := by rw [hh]; positivity
  rw [← hh] at hh1 ⊢
  obtain ⟨d, hdd⟩ : ∃ d : ℝ, d = D.dt := ⟨_, rfl⟩
  unfold modeDens modeErr
  rw [← hdd] at h0 h1 ⊢
  rw [hp, hd]
  have hl' : 1 / D.lam ≤ 1 / 5 := one_div_le_one_div_of_le (by norm_num) hl
  have d2 : 0 < d ^ 2 := by positivity
  have k2 : 0 < h ^ 2 := by positivity
  have c2 : ∀ {x y c : ℝ}, 0 < y → x ≤ c → x * y ≤ c * y := fun hy hx => mul_le_mul_of_nonneg_right hx hy.le
  have a1 : tau ^ 2 * d ^ 2 / 8 ≤ 4.935 * d ^ 2 := by have := c2 d2 t2; linarith
  have a4 : tau ^ 3 * d / 2 ≤ 124.03 * d := by have := c2 h0 t3; linarith
  have dd : d ^ 2 ≤ 1 / 32 * d := by rw [sq]; exact c2 h0 h1
  have hhh : h ^ 2 ≤ 1 / 32 * h := by rw [sq]; exact c2 hh0 hh1
  have a32 : tau ^ 2 * d / 2 + tau ^ 3 * d ^ 2 / 8 ≤ 20.71 * d := by
    have := c2 h0 t2; have := c2 d2 t3; linarith
  have kE : tau ^ 2 * h / 2 ≤ 19.74 * h := by have := c2 hh0 t2; linarith
  have e1 : tau ^ 2 * h ^ 2 / 8 ≤ 4.935 * h ^ 2 := by have := c2 k2 t2; linarith
  have t4' : (tau ^ 2) ^ 2 ≤ 1558.57 := by rw [← pow_mul]; exact t4
  have d4 : d ^ 4 ≤ 1 / 1024 * d ^ 2 := by
    have : d ^ 2 ≤ (1 / 32) ^ 2 := pow_le_pow_left₀ h0.le h1 2
    have e : d ^ 4 = d ^ 2 * d ^ 2 := by ring
    rw [e]; refine c2 d2 (this.trans (by norm_num))
  have h4 : h ^ 4 ≤ 1 / 1024 * h ^ 2 := by
    have : h ^ 2 ≤ (1 / 32) ^ 2 := pow_le_pow_left₀ hh0.le hh1 2
    have e : h ^ 4 = h ^ 2 * h ^ 2 := by ring
    rw [e]; refine c2 k2 (this.trans (by norm_num))
  have p4 : 0 < d ^ 4 := by positivity
  have q4 : 0 < h ^ 4 := by positivity
  constructor
  · calc _ ≤ 1 / 1 * ((2 * ((124.03 * d) ^ 2 * (1 / 2)) + 2 * (1558.57 * (4.935 * h ^ 2) ^ 2))
        + (2 * ((4.935 * d ^ 2) ^ 2 * 39.479) + 2 * (19.74 * h) ^ 2)
        + 1 / 5 * (2 * ((4.935 * d ^ 2) ^ 2 * (2 * h * 39.479)) + 2 * (2 * h * (19.74 * h) ^ 2))
        + (2 * ((20.71 * d) ^ 2 * (1 / 2)) + 2 * ((20.71 * d) ^ 2 * (4.935 * h ^ 2) ^ 2)))
      + 1e-3 * (2 * (1558.57 * h ^ 2)
        + (2 * ((20.71 * d) ^ 2 * (1 / 2)) + 2 * ((20.71 * d) ^ 2 * (4.935 * h ^ 2) ^ 2))
        + h ^ 2 * (2 * (2 * ((124.03 * d) ^ 2 * (1 / 2)) + 2 * (1558.57 * (4.935 * h ^ 2) ^ 2)) + 2 * (1558.57 * (1 / 2)))) := by gcongr
      _ = (124.03 ^ 2 + 1.001 * 20.71 ^ 2) * d ^ 2 + (2 * 19.74 ^ 2 + 1e-3 * 3 * 1558.57) * h ^ 2
        + 2 * 1558.57 * 4.935 ^ 2 * h ^ 4 + 2 * 4.935 ^ 2 * 39.479 * d ^ 4 + 1 / 5 * (4 * 4.935 ^ 2 * 39.479) * (d ^ 4 * h)
        + 1 / 5 * (4 * 19.74 ^ 2) * h ^ 3 + 1.001 * (2 * 20.71 ^ 2 * 4.935 ^ 2) * (d ^ 2 * h ^ 4)
        + 1e-3 * (2 * 124.03 ^ 2) * (h ^ 2 * d ^ 2) + 1e-3 * (4 * 1558.57 * 4.935 ^ 2) * (h ^ 2 * h ^ 4) := by ring
      _ ≤ _ := by
        have u1 : d ^ 4 * h ≤ 1 / 32 * d ^ 4 := by rw [mul_comm]; exact c2 p4 hh1
        have u2 : h ^ 3 ≤ 1 / 32 * h ^ 2 := by
          have e : h ^ 3 = h * h ^ 2 := by ring
          rw [e]; exact c2 k2 hh1
        have u3 : d ^ 2 * h ^ 4 ≤ 1 / 1024 * h ^ 4 := c2 q4 ((pow_le_pow_left₀ h0.le h1 2).trans (by norm_num))
        have u4 : h ^ 2 * d ^ 2 ≤ 1 / 1024 * h ^ 2 := by
          rw [mul_comm]; exact c2 k2 ((pow_le_pow_left₀ h0.le h1 2).trans (by norm_num))
        have u5 : h ^ 2 * h ^ 4 ≤ 1 / 1024 * h ^ 4 := c2 q4 ((pow_le_pow_left₀ hh0.le hh1 2).trans (by norm_num))
        exact numbers1_aux d2.le k2.le d4 h4 u1 u2 u3 u4 u5
  · calc _ ≤ 2 * ((4.935 * d ^ 2) ^ 2 * (1 / 2)) + 2 * (4.935 * h ^ 2) ^ 2 := by gcongr
      _ = 4.935 ^ 2 * d ^ 4 + 2 * 4.935 ^ 2 * h ^ 4 := by ring
      _ ≤ _ := by norm_num; linarith

end
end Dxss
