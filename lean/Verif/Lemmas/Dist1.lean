import Verif.Lemmas.Sine1
import Verif.Lemmas.ReportDiff

/-!
# Distance of the wave of solve_1d.py to its interpolant by linear elements in space and time
-/

namespace Dxss
open Finset

/-! ### Linear interpolation in time -/

theorem phi_one (s : ℝ) : phi 1 0 s = 1 - s ∧ phi 1 1 s = s ∧ dphi 1 0 s = -1 ∧ dphi 1 1 s = 1 := by
  refine ⟨?_, ?_, ?_, ?_⟩ <;> simp [phi, dphi, basisInTime]

theorem val_one {V : Type} [AddCommGroup V] [Module ℝ V] {dt : ℝ} (hdt : dt ≠ 0) (n : ℕ) (F : ℤ → V) {f : ℝ → ℝ} {v : V}
    (h0 : F (n * 2) = f (n * dt) • v) (h1 : F (n * 2 + 1) = f ((n + 1 : ℕ) * dt) • v) (t : ℝ) :
    Spec.val 1 dt n F t = (((n + 1 : ℕ) * dt - t) / dt * f (n * dt) + (t - n * dt) / dt * f ((n + 1 : ℕ) * dt)) • v ∧
    Spec.valDt 1 dt n F t = ((f ((n + 1 : ℕ) * dt) - f (n * dt)) / dt) • v := by
  have e0 : blk 1 n F 0 = f (n * dt) • v := by
    rw [← h0]; unfold blk; norm_num
  have e1 : blk 1 n F 1 = f ((n + 1 : ℕ) * dt) • v := by
    rw [← h1]; unfold blk; norm_num
  rw [val_eq, valDt_eq (by norm_num)]
  unfold comb phiT dphiT
  obtain ⟨p1, p2, -⟩ := phi_one ((t - n * dt) / dt)
  obtain ⟨-, -, p3, p4⟩ := phi_one ((t - n * dt) / dt)
  rw [sum_range_succ, sum_range_one, sum_range_succ, sum_range_one, e0, e1, p1, p2, p3, p4]
  simp only [smul_smul, ← add_smul]
  constructor
  · congr 2; push_cast; field_simp; ring
  · congr 1; field_simp; ring

/-- The time factors of the wave. -/
noncomputable def ca (t : ℝ) : ℝ := Real.cos (tau * t)
noncomputable def cb (t : ℝ) : ℝ := -tau * Real.sin (tau * t)

theorem ca_deriv (t : ℝ) : HasDerivAt ca (cb t) t := by
  have h0 : HasDerivAt (fun y : ℝ => tau * y) tau t := by simpa using (hasDerivAt_id t).const_mul tau
  refine ((Real.hasDerivAt_cos _).comp t h0).congr_deriv ?_
  unfold cb; ring

theorem cb_deriv (t : ℝ) : HasDerivAt cb (-tau ^ 2 * ca t) t := by
  have h0 : HasDerivAt (fun y : ℝ => tau * y) tau t := by simpa using (hasDerivAt_id t).const_mul tau
  refine (((Real.hasDerivAt_sin _).comp t h0).const_mul (-tau)).congr_deriv ?_
  unfold ca; ring

theorem cc_deriv (t : ℝ) : HasDerivAt (fun t => -tau ^ 2 * ca t) (-tau ^ 2 * cb t) t := (ca_deriv t).const_mul _

theorem ca_le (t : ℝ) : |ca t| ≤ 1 := Real.abs_cos_le_one _
theorem cb_le (t : ℝ) : |cb t| ≤ tau := by
  unfold cb
  rw [abs_mul, abs_neg, abs_of_pos tau_bounds.1]
  exact mul_le_of_le_one_right tau_bounds.1.le (Real.abs_sin_le_one _)

/-- Linear interpolation of the time factors on `[a, a + dt]`. -/
theorem time_interp {a b t : ℝ} (hab : a < b) (ht : t ∈ Set.Icc a b) :
    |ca t - ((b - t) / (b - a) * ca a + (t - a) / (b - a) * ca b)| ≤ tau ^ 2 * (b - a) ^ 2 / 8 ∧
    |cb t - (ca b - ca a) / (b - a)| ≤ tau ^ 2 * (b - a) / 2 ∧
    |cb t - ((b - t) / (b - a) * cb a + (t - a) / (b - a) * cb b)| ≤ tau ^ 3 * (b - a) ^ 2 / 8 ∧
    |-tau ^ 2 * ca t - (cb b - cb a) / (b - a)| ≤ tau ^ 3 * (b - a) / 2 := by
  have t0 := tau_bounds.1
  have h1 := lin_interp (f := ca) (f' := cb) (f'' := fun t => -tau ^ 2 * ca t) (M := tau ^ 2) ca_deriv cb_deriv
    (fun t => by
      rw [neg_mul, abs_neg, abs_mul, abs_of_nonneg (sq_nonneg _)]
      exact mul_le_of_le_one_right (sq_nonneg _) (ca_le t)) hab ht
  have h2 := lin_interp (f := cb) (f' := fun t => -tau ^ 2 * ca t) (f'' := fun t => -tau ^ 2 * cb t) (M := tau ^ 3) cb_deriv cc_deriv
    (fun t => by
      rw [neg_mul, abs_neg, abs_mul, abs_of_nonneg (sq_nonneg _), pow_succ]
      exact mul_le_mul_of_nonneg_left (cb_le t) (sq_nonneg _)) hab ht
  exact ⟨h1.1, h1.2, h2.1, h2.2⟩

theorem convex_abs {x y p q c : ℝ} (hp : 0 ≤ p) (hq : 0 ≤ q) (h : p + q = 1) (hx : |x| ≤ c) (hy : |y| ≤ c) : |p * x + q * y| ≤ c := by
  refine (abs_add_le _ _).trans ?_
  rw [abs_mul, abs_mul, abs_of_nonneg hp, abs_of_nonneg hq]
  have h1 := mul_le_mul_of_nonneg_left hx hp
  have h2 := mul_le_mul_of_nonneg_left hy hq
  have h3 : c = p * c + q * c := by rw [← add_mul, h, one_mul]
  linarith

/-! ### Combinations of the sine and its interpolation error -/

section
variable {V : Type} [AddCommGroup V] [Module ℝ V]

theorem mix_sub_aux (s w : V) (α β γ δ : ℝ) : α • s + β • w - (γ • s + δ • w) = (α - γ) • s + (β - δ) • w := by
  rw [sub_smul, sub_smul]; abel

theorem sub_mix_aux (s i : V) (a l : ℝ) : a • s - l • i = (a - l) • s + l • (s - i) := by
  rw [sub_smul, smul_sub]; abel

end

section
variable {n : ℕ} (hn : 0 < n)

/-- `α` times the sine plus `β` times the interpolation error. -/
noncomputable def mix (α β : ℝ) : (Mesh1.unit n hn).Broken := α • sin1 hn + β • sinE hn

theorem mix_sub (α β γ δ : ℝ) : mix hn α β - mix hn γ δ = mix hn (α - γ) (β - δ) :=
  mix_sub_aux _ _ _ _ _ _

theorem sub_mix (a l : ℝ) : a • sin1 hn - l • sinI hn = mix hn (a - l) l :=
  sub_mix_aux _ _ _ _

theorem mix_le (B : (Mesh1.unit n hn).Broken →ₗ[ℝ] (Mesh1.unit n hn).Broken →ₗ[ℝ] ℝ) (hB : ∀ v, 0 ≤ B v v) {α β a b s w : ℝ}
    (hα : |α| ≤ a) (hβ : |β| ≤ b) (hs : B (sin1 hn) (sin1 hn) ≤ s) (hw : B (sinE hn) (sinE hn) ≤ w) :
    B (mix hn α β) (mix hn α β) ≤ 2 * (a ^ 2 * s) + 2 * (b ^ 2 * w) := by
  refine (bilin_add_le B hB _ _).trans ?_
  simp only [map_smul, LinearMap.smul_apply, smul_eq_mul]
  have s0 : 0 ≤ s := (hB _).trans hs
  have w0 : 0 ≤ w := (hB _).trans hw
  have h1 : α ^ 2 ≤ a ^ 2 := by rw [← sq_abs α]; exact pow_le_pow_left₀ (abs_nonneg _) hα 2
  have h2 : β ^ 2 ≤ b ^ 2 := by rw [← sq_abs β]; exact pow_le_pow_left₀ (abs_nonneg _) hβ 2
  have h3 : α ^ 2 * B (sin1 hn) (sin1 hn) ≤ a ^ 2 * s := mul_le_mul h1 hs (hB _) (sq_nonneg _)
  have h4 : β ^ 2 * B (sinE hn) (sinE hn) ≤ b ^ 2 * w := mul_le_mul h2 hw (hB _) (sq_nonneg _)
  linarith

/-- The errors at one time, as multiples of the sine and its interpolation error: sizes of the factors. -/
structure Sizes (dt : ℝ) (α1 β1 α2 β2 α3 β3 α4 β4 : ℝ) : Prop where
  a1 : |α1| ≤ tau ^ 2 * dt ^ 2 / 8
  b1 : |β1| ≤ 1
  a2 : |α2| ≤ tau ^ 3 * dt ^ 2 / 8
  a3 : |α3| ≤ tau ^ 2 * dt / 2
  a4 : |α4| ≤ tau ^ 3 * dt / 2
  b4 : |β4| ≤ tau ^ 2
  s : |α1 + β1| ≤ 1
  b32 : β3 - β2 = -(α3 - α2)

theorem tau_pows : tau ^ 2 ≤ 39.479 ∧ tau ^ 3 ≤ 248.06 ∧ tau ^ 4 ≤ 1558.57 := by
  obtain ⟨h0, h1⟩ := tau_bounds
  have a := pow_le_pow_left₀ h0.le h1 2
  have b := pow_le_pow_left₀ h0.le h1 3
  have c := pow_le_pow_left₀ h0.le h1 4
  norm_num at a b c ⊢
  exact ⟨by linarith, by linarith, by linarith⟩

theorem lap_mix (α β : ℝ) : (Mesh1.unit n hn).space.lap (mix hn α β) = (-tau ^ 2 * (α + β)) • sin1 hn := by
  have : (Mesh1.unit n hn).space.lap (sinE hn) = (-tau ^ 2) • sin1 hn := by
    unfold sinE
    rw [map_sub, lap_sin1, lap_sinI, sub_zero]
  unfold mix
  rw [map_add, map_smul, map_smul, lap_sin1, this, smul_smul, smul_smul, ← add_smul]
  congr 1
  ring

/-- The indicator one. -/
theorem unit_psd : (Mesh1.unit n hn).space.Psd (Mesh1.unit n hn).space.one :=
  (Mesh1.unit n hn).space_psd fun i hi y _ => by
    rw [(Mesh1.unit n hn).cell_apply hi]; exact zero_le_one

theorem small_pows {x : ℝ} (h0 : 0 < x) (h1 : x ≤ 1 / 100) :
    x ^ 2 ≤ 1e-4 ∧ x ^ 3 ≤ 1e-2 * x ^ 2 ∧ x ^ 4 ≤ 1e-4 * x ^ 2 ∧ x ^ 6 ≤ 1e-8 * x ^ 2 := by
  have h2 : x ^ 2 ≤ 1e-4 := (pow_le_pow_left₀ h0.le h1 2).trans (by norm_num)
  have h4 : x ^ 4 ≤ 1e-8 := (pow_le_pow_left₀ h0.le h1 4).trans (by norm_num)
  have p : 0 ≤ x ^ 2 := sq_nonneg x
  refine ⟨h2, ?_, ?_, ?_⟩
  · calc x ^ 3 = x * x ^ 2 := by ring
      _ ≤ _ := mul_le_mul_of_nonneg_right (h1.trans (by norm_num)) p
  · calc x ^ 4 = x ^ 2 * x ^ 2 := by ring
      _ ≤ _ := mul_le_mul_of_nonneg_right h2 p
  · calc x ^ 6 = x ^ 4 * x ^ 2 := by ring
      _ ≤ _ := mul_le_mul_of_nonneg_right h4 p

theorem dens_numbers {d h m4 s1 f1 m32 p1 g1 r : ℝ} (d0 : 0 < d) (d1 : d ≤ 1 / 100) (h0 : 0 < h) (h1 : h ≤ 1 / 100)
    (e4 : m4 ≤ 2 * ((124.03 * d) ^ 2 * (1 / 2)) + 2 * (39.479 ^ 2 * (4.935 * h ^ 2) ^ 2))
    (es : s1 ≤ 2 * ((4.935 * d ^ 2) ^ 2 * 39.479) + 2 * (1 ^ 2 * (19.74 * h) ^ 2))
    (ef : f1 ≤ 2 * ((4.935 * d ^ 2) ^ 2 * (79 * h)) + 2 * (1 ^ 2 * (2 * h * (19.74 * h) ^ 2)))
    (em : m32 ≤ 2 * ((20.06 * d) ^ 2 * (1 / 2)) + 2 * ((20.06 * d) ^ 2 * (4.935 * h ^ 2) ^ 2))
    (ep : p1 ≤ 2 * ((4.935 * d ^ 2) ^ 2 * 0) + 2 * (1 ^ 2 * 0)) (eg : g1 ≤ 2 * ((4.935 * d ^ 2) ^ 2 * 0) + 2 * (1 ^ 2 * (1558.57 * h ^ 2)))
    (er : r ≤ 2 * (2 * ((124.03 * d) ^ 2 * (1 / 2)) + 2 * (39.479 ^ 2 * (4.935 * h ^ 2) ^ 2)) + 1559) :
    1 / 1 * (m4 + s1 + 1 / 5 * f1 + m32) + 1e-3 * (5 * p1 + g1 + m32 + h ^ 2 * r) ≤ 15900 * d ^ 2 + 900 * h ^ 2 := by
  obtain ⟨x2, x3, x4, x6⟩ := small_pows d0 d1
  obtain ⟨y2, y3, y4, y6⟩ := small_pows h0 h1
  have pd : 0 < d ^ 2 := by positivity
  have ph : 0 < h ^ 2 := by positivity
  have z1 : d ^ 4 * h ≤ 1e-2 * d ^ 4 := by
    calc d ^ 4 * h ≤ d ^ 4 * (1 / 100) := mul_le_mul_of_nonneg_left h1 (by positivity)
      _ = _ := by norm_num; ring
  have z2 : d ^ 2 * h ^ 4 ≤ d ^ 2 * 1 := mul_le_mul_of_nonneg_left (pow_le_one₀ h0.le (h1.trans (by norm_num))) pd.le
  have z3 : d ^ 2 * h ^ 2 ≤ 1e-4 * h ^ 2 := mul_le_mul_of_nonneg_right x2 ph.le
  have z4 : d ^ 2 * h ^ 4 ≤ 1e-4 * d ^ 2 := by
    calc d ^ 2 * h ^ 4 ≤ d ^ 2 * (1e-4 * h ^ 2) := mul_le_mul_of_nonneg_left y4 pd.le
      _ ≤ d ^ 2 * (1e-4 * 1) := by gcongr; exact pow_le_one₀ h0.le (h1.trans (by norm_num))
      _ = _ := by ring
  have k4 : m4 ≤ 15383.5 * d ^ 2 + 8 * h ^ 2 := by
    have e : 2 * ((124.03 * d) ^ 2 * (1 / 2)) + 2 * (39.479 ^ 2 * (4.935 * h ^ 2) ^ 2) = 124.03 ^ 2 * d ^ 2 + 2 * 39.479 ^ 2 * 4.935 ^ 2 * h ^ 4 := by ring
    rw [e] at e4
    norm_num at e4 y4 ⊢
    linarith
  have ks : s1 ≤ d ^ 2 + 780 * h ^ 2 := by
    have e : 2 * ((4.935 * d ^ 2) ^ 2 * 39.479) + 2 * (1 ^ 2 * (19.74 * h) ^ 2) = 2 * 4.935 ^ 2 * 39.479 * d ^ 4 + 2 * 19.74 ^ 2 * h ^ 2 := by ring
    rw [e] at es
    norm_num at es x4 ⊢
    linarith
  have kf : f1 ≤ d ^ 2 + 20 * h ^ 2 := by
    have e : 2 * ((4.935 * d ^ 2) ^ 2 * (79 * h)) + 2 * (1 ^ 2 * (2 * h * (19.74 * h) ^ 2)) = 2 * 4.935 ^ 2 * 79 * (d ^ 4 * h) + 4 * 19.74 ^ 2 * h ^ 3 := by ring
    rw [e] at ef
    norm_num at ef x4 y3 z1 ⊢
    linarith
  have km : m32 ≤ 403 * d ^ 2 := by
    have e : 2 * ((20.06 * d) ^ 2 * (1 / 2)) + 2 * ((20.06 * d) ^ 2 * (4.935 * h ^ 2) ^ 2) = 20.06 ^ 2 * d ^ 2 + 2 * 20.06 ^ 2 * 4.935 ^ 2 * (d ^ 2 * h ^ 4) := by ring
    have z5 : d ^ 2 * h ^ 4 ≤ 1e-8 * d ^ 2 := by
      calc d ^ 2 * h ^ 4 ≤ d ^ 2 * (1e-4 * h ^ 2) := mul_le_mul_of_nonneg_left y4 pd.le
        _ ≤ d ^ 2 * (1e-4 * 1e-4) := by gcongr
        _ = _ := by norm_num; ring
    rw [e] at em
    norm_num at em z5 ⊢
    linarith
  have kr : h ^ 2 * r ≤ 1600 * h ^ 2 := by
    have er' : r ≤ 1600 := by
      refine er.trans ?_
      have e : 2 * (2 * ((124.03 * d) ^ 2 * (1 / 2)) + 2 * (39.479 ^ 2 * (4.935 * h ^ 2) ^ 2)) + 1559 = 2 * 124.03 ^ 2 * d ^ 2 + 4 * 39.479 ^ 2 * 4.935 ^ 2 * h ^ 4 + 1559 := by ring
      rw [e]
      norm_num at x2 y2 y4 ⊢
      linarith
    rw [mul_comm]
    exact mul_le_mul_of_nonneg_right er' ph.le
  norm_num at ep eg ⊢
  linarith

theorem sub_smul_le {V : Type} [AddCommGroup V] [Module ℝ V] (B : V →ₗ[ℝ] V →ₗ[ℝ] ℝ) (hB : ∀ v, 0 ≤ B v v) (a s : V) (c : ℝ) :
    B (a - c • s) (a - c • s) ≤ 2 * B a a + 2 * (c ^ 2 * B s s) := by
  have := bilin_add_le B hB a (-c • s)
  rw [neg_smul, ← sub_eq_add_neg] at this
  refine this.trans (le_of_eq ?_)
  simp only [map_neg, LinearMap.neg_apply, map_smul, LinearMap.smul_apply, smul_eq_mul]
  ring

theorem bilin_sub_swap {V : Type} [AddCommGroup V] [Module ℝ V] (B : V →ₗ[ℝ] V →ₗ[ℝ] ℝ) (a b : V) : B (a - b) (a - b) = B (b - a) (b - a) := by
  rw [← neg_sub b a]
  simp only [map_neg, LinearMap.neg_apply, neg_neg]

/-- The density of the distance of the wave to its interpolant. -/
theorem dens_le {D : Disc (Mesh1.unit n hn).Broken} (hl : D.lam = 5) (hp : D.gPrimal = 1e-3) (hd : D.gDual = 1) {dt : ℝ} (h0 : 0 < dt)
    (h1 : dt ≤ 1 / 100) (hn1 : 100 ≤ n) {α1 β1 α2 β2 α3 β3 α4 β4 : ℝ} (z : Sizes dt α1 β1 α2 β2 α3 β3 α4 β4) :
    Spec.errDens (Mesh1.unit n hn).space D (Mesh1.unit n hn).flux (mix hn α1 β1) (mix hn α2 β2) (mix hn α3 β3) (mix hn α4 β4)
      ≤ 15900 * dt ^ 2 + 900 * (1 / n) ^ 2 ∧
    (Mesh1.unit n hn).space.mass (mix hn α1 β1) (mix hn α1 β1) ≤ 25 * dt ^ 4 + 49 * (1 / n) ^ 4 := by
  have P := unit_psd hn
  obtain ⟨t2, t3, t4⟩ := tau_pows
  have hn' : (0:ℝ) < n := by exact_mod_cast hn
  have hh1 : 1 / (n:ℝ) ≤ 1 / 100 := one_div_le_one_div_of_le (by norm_num) (by exact_mod_cast hn1)
  set h : ℝ := 1 / n with hh
  have hh0 : 0 < h := by positivity
  have d2 : 0 < dt ^ 2 := by positivity
  have k2 : 0 < h ^ 2 := by positivity
  have c2 : ∀ {x y c : ℝ}, 0 < y → x ≤ c → x * y ≤ c * y := fun hy hx => mul_le_mul_of_nonneg_right hx hy.le
  have a1 : |α1| ≤ 4.935 * dt ^ 2 := z.a1.trans (by have := c2 d2 t2; linarith)
  have a2 : |α2| ≤ 31.01 * dt ^ 2 := z.a2.trans (by have := c2 d2 t3; linarith)
  have a3 : |α3| ≤ 19.74 * dt := z.a3.trans (by have := c2 h0 t2; linarith)
  have a4 : |α4| ≤ 124.03 * dt := z.a4.trans (by have := c2 h0 t3; linarith)
  have b4 : |β4| ≤ 39.479 := z.b4.trans t2
  have kE : tau ^ 2 * h / 2 ≤ 19.74 * h := by have := c2 hh0 t2; linarith
  have mE : (Mesh1.unit n hn).space.mass (sinE hn) (sinE hn) ≤ (4.935 * h ^ 2) ^ 2 :=
    (mass_sinE hn).trans (pow_le_pow_left₀ (by positivity) (by rw [← hh]; have := c2 k2 t2; linarith) 2)
  have sE : (Mesh1.unit n hn).space.stiff (sinE hn) (sinE hn) ≤ (19.74 * h) ^ 2 :=
    (stiff_sinE hn).trans (pow_le_pow_left₀ (by positivity) kE 2)
  have sS := (stiff_sin1 hn).trans t2
  have fS : (Mesh1.unit n hn).flux (sin1 hn) (sin1 hn) ≤ 79 * h := (flux_sin1 hn).trans (by rw [← hh]; have := c2 hh0 t2; linarith)
  have fE : (Mesh1.unit n hn).flux (sinE hn) (sinE hn) ≤ 2 * h * (19.74 * h) ^ 2 :=
    (flux_sinE hn).trans (mul_le_mul_of_nonneg_left (pow_le_pow_left₀ (by positivity) kE 2) (by positivity))
  have gE : (Mesh1.unit n hn).space.ghost (sinE hn) (sinE hn) ≤ 1558.57 * h ^ 2 :=
    (ghost_sinE hn).trans (mul_le_mul_of_nonneg_right t4 (sq_nonneg _))
  have a32 : |α3 - α2| ≤ 20.06 * dt := (abs_sub _ _).trans (by
    have : dt ^ 2 ≤ 1 / 100 * dt := by rw [sq]; exact c2 h0 h1
    linarith)
  have m1 := mix_le hn _ P.mass a1 z.b1 (mass_sin1 hn).le mE
  have m4 := mix_le hn _ P.mass a4 b4 (mass_sin1 hn).le mE
  have m32 := mix_le hn _ P.mass a32 (β := β3 - β2) (b := 20.06 * dt) (by rw [z.b32, abs_neg]; exact a32) (mass_sin1 hn).le mE
  have s1 := mix_le hn _ P.stiff a1 z.b1 sS sE
  have f1 := mix_le hn _ (Mesh1.unit n hn).flux_nonneg a1 z.b1 fS fE
  have p1 := mix_le hn _ P.pen a1 z.b1 (pen_sin1 hn _).le (pen_sinE hn _).le
  have g1 := mix_le hn _ P.ghost a1 z.b1 (ghost_sin1 hn _).le gE
  have r : (Mesh1.unit n hn).space.mass (mix hn α4 β4 - (Mesh1.unit n hn).space.lap (mix hn α1 β1))
      (mix hn α4 β4 - (Mesh1.unit n hn).space.lap (mix hn α1 β1)) ≤ 2 * (2 * ((124.03 * dt) ^ 2 * (1 / 2)) + 2 * (39.479 ^ 2 * (4.935 * h ^ 2) ^ 2)) + 1559 := by
    rw [lap_mix]
    refine (sub_smul_le _ P.mass _ _ _).trans ?_
    rw [mass_sin1]
    have q : (α1 + β1) ^ 2 ≤ 1 := by rw [← sq_abs]; exact pow_le_one₀ (abs_nonneg _) z.s
    have := mul_le_mul t4 q (sq_nonneg _) (by norm_num)
    have e : 2 * ((-tau ^ 2 * (α1 + β1)) ^ 2 * (1 / 2)) = tau ^ 4 * (α1 + β1) ^ 2 := by ring
    rw [e]
    linarith
  constructor
  · unfold Spec.errDens Spec.primalStab
    rw [hl, hp, hd, bilin_sub_swap _ (mix hn α2 β2), mix_sub, h2_unit, ← hh]
    exact dens_numbers h0 h1 hh0 hh1 m4 s1 f1 m32 p1 g1 r
  · refine m1.trans ?_
    have e : 2 * ((4.935 * dt ^ 2) ^ 2 * (1 / 2)) + 2 * (1 ^ 2 * (4.935 * h ^ 2) ^ 2) = 4.935 ^ 2 * dt ^ 4 + 2 * 4.935 ^ 2 * h ^ 4 := by ring
    have x4 : 0 ≤ dt ^ 4 := by positivity
    have y4 : 0 ≤ h ^ 4 := by positivity
    rw [e]
    norm_num
    linarith

/-! ### The wave and its interpolant -/

theorem fn_sin (c : ℝ) : (Mesh1.unit n hn).fn (anaSin c) = c • sin1 hn := by
  funext i
  refine Subtype.ext (funext fun y => ?_)
  change c * Real.sin (2 * Real.pi * y) = c * (1 * Real.sin (2 * Real.pi * y))
  ring

/-- The wave of solve_1d.py. -/
noncomputable def wave1 : Spec.Path (Mesh1.unit n hn).Broken :=
  ⟨fun t => ca t • sin1 hn, fun t => cb t • sin1 hn, fun t => cb t • sin1 hn, fun t => (-tau ^ 2 * ca t) • sin1 hn⟩

/-- Its interpolant in space. -/
noncomputable def waveI : Spec.Path (Mesh1.unit n hn).Broken :=
  ⟨fun t => ca t • sinI hn, fun t => cb t • sinI hn, fun t => cb t • sinI hn, fun t => (-tau ^ 2 * ca t) • sinI hn⟩

/-- The errors on one slab. -/
theorem slab_errors {D : Disc (Mesh1.unit n hn).Broken} (hq : D.q = 1) (hdt : 0 < D.dt) {X : Field (Mesh1.unit n hn).Broken}
    (hX : Spec.Interpolates D (waveI hn) X) {k : ℕ} (hk : k < D.N) {t : ℝ} (ht : t ∈ Set.Icc (k * D.dt) ((k + 1 : ℕ) * D.dt)) :
    ∃ α1 β1 α2 β2 α3 β3 α4 β4, Sizes D.dt α1 β1 α2 β2 α3 β3 α4 β4 ∧
      (wave1 hn).u1 t - Spec.val D.q D.dt k (X 0) t = mix hn α1 β1 ∧ (wave1 hn).u2 t - Spec.val D.q D.dt k (X 1) t = mix hn α2 β2 ∧
      (wave1 hn).du1 t - Spec.valDt D.q D.dt k (X 0) t = mix hn α3 β3 ∧ (wave1 hn).du2 t - Spec.valDt D.q D.dt k (X 1) t = mix hn α4 β4 ∧
      Spec.val D.q D.dt k (X 0) t = β1 • sinI hn := by
  have e0 := hX.u1 k hk 0 (Nat.zero_le _)
  have e1 := hX.u1 k hk 1 hq.ge
  have f0 := hX.u2 k hk 0 (Nat.zero_le _)
  have f1 := hX.u2 k hk 1 hq.ge
  rw [hq] at e0 e1 f0 f1 ⊢
  have tb : (k:ℝ) * D.dt + ((1:ℕ):ℝ) / ((1:ℕ):ℝ) * D.dt = (k + 1 : ℕ) * D.dt := by push_cast; ring
  have ta : (k:ℝ) * D.dt + ((0:ℕ):ℝ) / ((1:ℕ):ℝ) * D.dt = k * D.dt := by push_cast; ring
  have i0 : (k:ℤ) * (((1:ℕ):ℤ) + 1) + ((0:ℕ):ℤ) = k * 2 := by push_cast; ring
  have i1 : (k:ℤ) * (((1:ℕ):ℤ) + 1) + ((1:ℕ):ℤ) = k * 2 + 1 := by push_cast; ring
  rw [tb, i1] at e1 f1
  rw [ta, i0] at e0 f0
  obtain ⟨v1, w1⟩ := val_one hdt.ne' k (X 0) (f := ca) (v := sinI hn) e0 e1 t
  obtain ⟨v2, w2⟩ := val_one hdt.ne' k (X 1) (f := cb) (v := sinI hn) f0 f1 t
  have hlen : ((k + 1 : ℕ) : ℝ) * D.dt - k * D.dt = D.dt := by push_cast; ring
  have hlt : (k:ℝ) * D.dt < (k + 1 : ℕ) * D.dt := by linarith
  obtain ⟨s1, s3, s2, s4⟩ := time_interp hlt ht
  rw [hlen] at s1 s2 s3 s4
  have pa : 0 ≤ ((k + 1 : ℕ) * D.dt - t) / D.dt := div_nonneg (sub_nonneg.2 ht.2) hdt.le
  have pb : 0 ≤ (t - k * D.dt) / D.dt := div_nonneg (sub_nonneg.2 ht.1) hdt.le
  have pab : ((k + 1 : ℕ) * D.dt - t) / D.dt + (t - k * D.dt) / D.dt = 1 := by rw [← add_div, sub_add_sub_cancel, hlen, div_self hdt.ne']
  refine ⟨_, ((k + 1 : ℕ) * D.dt - t) / D.dt * ca (k * D.dt) + (t - k * D.dt) / D.dt * ca ((k + 1 : ℕ) * D.dt), _,
    ((k + 1 : ℕ) * D.dt - t) / D.dt * cb (k * D.dt) + (t - k * D.dt) / D.dt * cb ((k + 1 : ℕ) * D.dt), _,
    (ca ((k + 1 : ℕ) * D.dt) - ca (k * D.dt)) / D.dt, _, (cb ((k + 1 : ℕ) * D.dt) - cb (k * D.dt)) / D.dt, ⟨s1, ?_, s2, s3, s4, ?_, ?_, ?_⟩, ?_, ?_, ?_, ?_, v1⟩
  · exact convex_abs pa pb pab (ca_le _) (ca_le _)
  · rw [abs_div, abs_of_pos hdt, div_le_iff₀ hdt]
    have := Convex.norm_image_sub_le_of_norm_hasDerivWithin_le (f := cb) (f' := fun t => -tau ^ 2 * ca t) (C := tau ^ 2) (s := Set.univ)
      (x := k * D.dt) (y := (k + 1 : ℕ) * D.dt) (fun t _ => (cb_deriv t).hasDerivWithinAt) (fun t _ => by
        rw [Real.norm_eq_abs, neg_mul, abs_neg, abs_mul, abs_of_nonneg (sq_nonneg _)]
        exact mul_le_of_le_one_right (sq_nonneg _) (ca_le t)) convex_univ (Set.mem_univ _) (Set.mem_univ _)
    rwa [hlen, Real.norm_eq_abs, Real.norm_eq_abs, abs_of_pos hdt] at this
  · rw [sub_add_cancel]; exact ca_le t
  · ring
  · rw [v1]; exact sub_mix hn _ _
  · rw [v2]; exact sub_mix hn _ _
  · rw [w1]; exact sub_mix hn _ _
  · rw [w2]; exact sub_mix hn _ _

/-- The data of the 1D script which matter here. -/
structure Data1 (D : Disc (Mesh1.unit n hn).Broken) : Prop where
  q : D.q = 1
  lam : D.lam = 5
  primal : D.gPrimal = 1e-3
  dual : D.gDual = 1
  data : D.gData = 1e4
  wp : D.wellPosed = false
  fw : D.jumpsFw = false
  T : D.N * D.dt = 1
  dt : 0 < D.dt
  dt_le : D.dt ≤ 1 / 100

theorem wave1_comb (I : Set ℝ) : CombOn I (wave1 hn).u1 ∧ CombOn I (wave1 hn).u2 ∧ CombOn I (wave1 hn).du1 ∧ CombOn I (wave1 hn).du2 := by
  have h1 : Continuous ca := continuous_iff_continuousAt.2 fun t => (ca_deriv t).continuousAt
  have h2 : Continuous cb := continuous_iff_continuousAt.2 fun t => (cb_deriv t).continuousAt
  exact ⟨.smul h1.continuousOn _, .smul h2.continuousOn _, .smul h2.continuousOn _, .smul (continuous_const.mul h1).continuousOn _⟩

theorem wave1_integrable {D : Disc (Mesh1.unit n hn).Broken} (hD : Data1 hn D) (X : Field (Mesh1.unit n hn).Broken) (k : ℕ) :
    IntervalIntegrable (Spec.distDens (Mesh1.unit n hn).space D (fun v => (Mesh1.unit n hn).flux v v) (wave1 hn) X k) MeasureTheory.volume
      (k * D.dt) ((k + 1 : ℕ) * D.dt) := by
  obtain ⟨c1, c2, c3, c4⟩ := wave1_comb hn (Set.uIcc (k * D.dt) ((k + 1 : ℕ) * D.dt))
  have hq : D.q ≤ 3 := by rw [hD.q]; norm_num
  have v0 := combOn_val hq D.dt k (Set.uIcc (k * D.dt) ((k + 1 : ℕ) * D.dt)) (X 0)
  have v1 := combOn_val hq D.dt k (Set.uIcc (k * D.dt) ((k + 1 : ℕ) * D.dt)) (X 1)
  exact (errDens_contOn (Mesh1.unit n hn).space D (Mesh1.unit n hn).flux (c1.sub v0.1) (c2.sub v1.1) (c3.sub v0.2) (c4.sub v1.2)).intervalIntegrable

/-- The distance of the wave to its interpolant. -/
theorem wave1_dist {D : Disc (Mesh1.unit n hn).Broken} (hD : Data1 hn D) (hn1 : 100 ≤ n) {X : Field (Mesh1.unit n hn).Broken}
    (hX : Spec.Interpolates D (waveI hn) X) {r : QuadRule} (hr : mkQuadRule "Gauss-Radau" 4 = .ok r) {Q : ℕ → (ℝ → ℝ) → ℝ}
    (hQ : ∀ k < D.N, RuleOnSlab r D.dt k (Q k)) :
    Spec.dist (Mesh1.unit n hn).space D (Mesh1.unit n hn).space.one (fun v => (Mesh1.unit n hn).flux v v) Q (wave1 hn) X
      ≤ 15925 * D.dt ^ 2 + 949 * (1 / n) ^ 2 := by
  have hdt := hD.dt
  have hn' : (0:ℝ) < n := by exact_mod_cast hn
  have hh1 : 1 / (n:ℝ) ≤ 1 / 100 := one_div_le_one_div_of_le (by norm_num) (by exact_mod_cast hn1)
  obtain ⟨-, -, x4, -⟩ := small_pows hdt hD.dt_le
  obtain ⟨-, -, y4, -⟩ := small_pows (x := 1 / (n:ℝ)) (by positivity) hh1
  have tot : 15925 * D.dt ^ 2 + 949 * (1 / (n:ℝ)) ^ 2 = ∑ k ∈ range D.N, (15925 * D.dt ^ 2 + 949 * (1 / (n:ℝ)) ^ 2) * D.dt := by
    rw [sum_const, card_range, nsmul_eq_mul, mul_comm _ D.dt, ← mul_assoc, hD.T, one_mul]
  rw [tot, Spec.dist]
  refine sum_le_sum fun k hk => ?_
  have hk := mem_range.1 hk
  have len : ((k + 1 : ℕ) : ℝ) * D.dt - k * D.dt = D.dt := by push_cast; ring
  have hle : (k : ℝ) * D.dt ≤ ((k + 1 : ℕ) : ℝ) * D.dt := by linarith
  have i1 : Spec.slabInt D.dt k (Spec.distDens (Mesh1.unit n hn).space D (fun v => (Mesh1.unit n hn).flux v v) (wave1 hn) X k)
      ≤ (15900 * D.dt ^ 2 + 900 * (1 / n) ^ 2) * D.dt := by
    have e : (15900 * D.dt ^ 2 + 900 * (1 / (n:ℝ)) ^ 2) * D.dt
        = ∫ _ in (k * D.dt)..(((k + 1 : ℕ) : ℝ) * D.dt), (15900 * D.dt ^ 2 + 900 * (1 / (n:ℝ)) ^ 2) := by
      rw [intervalIntegral.integral_const, len, smul_eq_mul, mul_comm]
    rw [e]
    refine intervalIntegral.integral_mono_on hle (wave1_integrable hn hD X k) intervalIntegrable_const fun t ht => ?_
    obtain ⟨α1, β1, α2, β2, α3, β3, α4, β4, z, h1, h2, h3, h4, -⟩ := slab_errors hn hD.q hdt hX hk ht
    have := (dens_le hn hD.lam hD.primal hD.dual hdt hD.dt_le hn1 z).1
    rw [← h1, ← h2, ← h3, ← h4] at this
    exact this
  have i2 : Q k (fun t => (Mesh1.unit n hn).space.omega (Mesh1.unit n hn).space.one ((wave1 hn).u1 t - Spec.val D.q D.dt k (X 0) t)
      ((wave1 hn).u1 t - Spec.val D.q D.dt k (X 0) t)) ≤ 2 * Q k (fun _ => 0) + (25 * D.dt ^ 4 + 49 * (1 / n) ^ 4) * D.dt := by
    refine ruleOnSlab_le hr hdt (hQ k hk) fun t ht => ?_
    obtain ⟨α1, β1, α2, β2, α3, β3, α4, β4, z, h1, -⟩ := slab_errors hn hD.q hdt hX hk ht
    have := (dens_le hn hD.lam hD.primal hD.dual hdt hD.dt_le hn1 z).2
    rw [omega_one1, h1]
    linarith
  have q0 : Q k (fun _ => 0) = 0 := by
    have := ruleOnSlab_mul (hQ k hk) 0 (fun _ => 0)
    simpa using this
  rw [q0] at i2
  have i3 : (if k = 0 then
        if D.wellPosed then D.gJump * Spec.jumpForm (Mesh1.unit n hn).space D.dt ((wave1 hn).u1 0 - Spec.val D.q D.dt 0 (X 0) 0) ((wave1 hn).u2 0 - Spec.val D.q D.dt 0 (X 1) 0)
          ((wave1 hn).u1 0 - Spec.val D.q D.dt 0 (X 0) 0) ((wave1 hn).u2 0 - Spec.val D.q D.dt 0 (X 1) 0) else 0
      else
        D.gJump * Spec.jumpForm (Mesh1.unit n hn).space D.dt (Spec.jump D.q D.dt k (X 0)) (Spec.jump D.q D.dt k (X 1))
          (Spec.jump D.q D.dt k (X 0)) (Spec.jump D.q D.dt k (X 1))
        + if D.jumpsFw then (1 + D.eps) ^ 2 / (D.gDual * D.dt) *
            ((Mesh1.unit n hn).space.mass (Spec.jump D.q D.dt k (X 0)) (Spec.jump D.q D.dt k (X 0)) + (Mesh1.unit n hn).space.mass (Spec.jump D.q D.dt k (X 1)) (Spec.jump D.q D.dt k (X 1)))
          else 0) = 0 := by
    by_cases h0 : k = 0
    · rw [if_pos h0, hD.wp]; rfl
    · obtain ⟨j1, j2⟩ := interpolant_jump (by rw [hD.q]; norm_num) hD.q.ge hdt hX hk h0
      rw [if_neg h0, j1, j2, hD.fw]
      simp [Spec.jumpForm]
  rw [i3, hD.data]
  have k1 := mul_le_mul_of_nonneg_right x4 hdt.le
  have k2 := mul_le_mul_of_nonneg_right y4 hdt.le
  norm_num at i2 k1 k2 i1 ⊢
  linarith

end
end Dxss
