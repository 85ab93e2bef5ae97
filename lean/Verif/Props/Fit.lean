import Verif.Lemmas.Mode1
import Verif.Props.OrderReport
import Verif.Props.Wave1

/-!
# Property C114: the computed solution fits the data

Not where the data suffice to determine the wave (C95, C105, C112), but for any data domain.
-/

namespace Dxss
open Finset

section
variable {V : Type} [AddCommGroup V] [Module ℝ V]

/-- The squared misfit on the data domain: the integral over time of `∫ ind (u - u_h)²`. -/
noncomputable def Spec.misfit (S : Space V) (D : Disc V) (ind : V) (u : ℝ → V) (X : Field V) : ℝ :=
  ∑ k ∈ range D.N, Spec.slabInt D.dt k (fun t => S.omega ind (u t - Spec.val D.q D.dt k (X 0) t) (u t - Spec.val D.q D.dt k (X 0) t))

theorem bilin_sub_weighted (B : V →ₗ[ℝ] V →ₗ[ℝ] ℝ) (hB : ∀ v, 0 ≤ B v v) (a b : V) : B (a - b) (a - b) ≤ 11 * B a a + 1.1 * B b b := by
  have := hB (a + (0.1:ℝ) • b)
  have e1 : B (a + (0.1:ℝ) • b) (a + (0.1:ℝ) • b) = B a a + 0.1 * (B a b + B b a) + 0.01 * B b b := by
    simp only [map_add, map_smul, LinearMap.add_apply, LinearMap.smul_apply, smul_eq_mul]; ring
  have e2 : B (a - b) (a - b) = B a a - (B a b + B b a) + B b b := by
    simp only [map_sub, LinearMap.sub_apply]; ring
  rw [e1] at this
  rw [e2]
  norm_num at this ⊢
  linarith

/-- The misfit is bounded by that of any comparison function and the energy of the difference. -/
theorem misfit_le {S : Space V} {D : Disc V} {ind : V} (hD : D.Ok) (hS : S.Psd ind) (hP : D.Positive) (hdata : 0 < D.gData) {u : ℝ → V}
    (hu : ∀ I, CombOn I u) {X Xs : Field V} {M : ℝ} (hM : ∀ k < D.N, ∀ t ∈ Set.Icc (k * D.dt) ((k + 1 : ℕ) * D.dt),
      S.omega ind (u t - Spec.val D.q D.dt k (Xs 0) t) (u t - Spec.val D.q D.dt k (Xs 0) t) ≤ M) :
    Spec.misfit S D ind u X ≤ 11 * (D.N * D.dt * M) + 1.1 * (Spec.energy S D ind (X - Xs) / D.gData) := by
  have hdt := hP.dt
  have hw := hP.weights
  have hq := hD.hq
  have len : ∀ k : ℕ, ((k + 1 : ℕ) : ℝ) * D.dt - k * D.dt = D.dt := fun k => by push_cast; ring
  have hle : ∀ k : ℕ, (k : ℝ) * D.dt ≤ ((k + 1 : ℕ) : ℝ) * D.dt := fun k => by linarith [len k]
  have key : ∀ k ∈ range D.N, Spec.slabInt D.dt k (fun t => S.omega ind (u t - Spec.val D.q D.dt k (X 0) t) (u t - Spec.val D.q D.dt k (X 0) t))
      ≤ 11 * (D.dt * M) + 1.1 * ((∫ t in (k * D.dt)..(((k + 1 : ℕ) : ℝ) * D.dt), eDens S D ind (X - Xs) k t) / D.gData) := by
    intro k hk
    have hk := mem_range.1 hk
    set I := Set.uIcc ((k : ℝ) * D.dt) (((k + 1 : ℕ) : ℝ) * D.dt)
    have c0 := (combOn_val hq D.dt k I (X 0)).1
    have e1 : ∫ _ in (k * D.dt)..(((k + 1 : ℕ) : ℝ) * D.dt), 11 * M = 11 * (D.dt * M) := by
      rw [intervalIntegral.integral_const, len, smul_eq_mul]; ring
    have hc := continuous_eDens S D hD ind (X - Xs) k
    rw [← e1, ← intervalIntegral.integral_div, ← intervalIntegral.integral_const_mul, ← intervalIntegral.integral_add intervalIntegrable_const
      ((hc.div_const _).const_mul _ |>.intervalIntegrable _ _)]
    refine intervalIntegral.integral_mono_on (hle k) (((hu I).sub c0).bilin _ ((hu I).sub c0)).intervalIntegrable
      (continuous_const.add ((hc.div_const _).const_mul _) |>.intervalIntegrable _ _) fun t ht => ?_
    have e : u t - Spec.val D.q D.dt k (X 0) t
        = (u t - Spec.val D.q D.dt k (Xs 0) t) - Spec.val D.q D.dt k ((X - Xs) 0) t := by
      rw [Pi.sub_apply, val_sub]; abel
    rw [e]
    refine (bilin_sub_weighted _ hS.omega _ _).trans (add_le_add (mul_le_mul_of_nonneg_left (hM k hk t ht) (by norm_num))
      (mul_le_mul_of_nonneg_left ?_ (by norm_num)))
    rw [le_div_iff₀ hdata, mul_comm, eDens]
    have h1 := mul_nonneg hw.dual (dualStab_nonneg hS hw.lam (Spec.val D.qstar D.dt k ((X - Xs) 2) t) (Spec.val D.qstar D.dt k ((X - Xs) 3) t))
    have h2 := mul_nonneg hw.primal (primalStab_nonneg hS hw.lam (Spec.val D.q D.dt k ((X - Xs) 0) t) (Spec.val D.q D.dt k ((X - Xs) 1) t)
      (Spec.valDt D.q D.dt k ((X - Xs) 0) t) (Spec.valDt D.q D.dt k ((X - Xs) 1) t))
    change _ ≤ _ + D.gDual * Spec.dualStab S D.lam _ _ _ _ + D.gPrimal * Spec.primalStab S D.lam _ _ _ _ _ _ _ _
    linarith
  refine (sum_le_sum key).trans ?_
  rw [sum_add_distrib, sum_const, card_range, nsmul_eq_mul, ← mul_sum, ← sum_div, energy_eq]
  refine add_le_add (le_of_eq (by ring)) (mul_le_mul_of_nonneg_left (div_le_div_of_nonneg_right ?_ hdata.le) (by norm_num))
  exact sum_le_sum fun k _ => le_add_of_nonneg_right (eBot_nonneg _ hS hw k)

variable {S : Space V} {g : V →ₗ[ℝ] V →ₗ[ℝ] ℝ} {ω : ℝ} {s i : V} {mS mE sS sE fS fE gE κ : ℝ}
  {interp : V →ₗ[ℝ] V} {a : Args V} {om om' : DataDomain V} {B : Built V} {C : Cfg V}

/-- C114, on any domain and mesh and with any data domain which is not lost (C35): let the data be the values of a standing wave.  If a
vector solves the linear system, the function it represents agrees with the data on the data domain up to interpolation errors and a
floor caused by the rounded quadrature weights. -/
theorem C114_fit (hb : construct interp a om = (.ok B, om')) (hC : C.Ok) (hB : C.OfBuilt B) (hS : C.S = S)
    (hPsd : C.S.Psd C.D.ind) (he : ∀ v, S.omega C.D.ind v v ≤ S.mass v v) (hP : C.D.Positive) (hdata : 0 < C.D.gData) (hlam : 0 < C.D.lam)
    (hNpos : 0 < C.D.N) (hq0 : 1 ≤ C.D.q) (hq : C.D.q ≤ 3) (hqs : C.D.qstar ≤ 3) (hwp : C.D.wellPosed = false) (hfw : C.D.jumpsFw = false)
    (hsmall : 1e-24 ≤ C.D.gData * C.D.gDual * C.D.dt ^ 2) {K : ℝ} (ho : C.Observable K)
    (hK : K * ((1e-20) ^ 2 * (C.D.qstar + 1) ^ 2) ≤ 1e-2 * (C.D.gDual * C.D.dt))
    (hm : Mode S g ω s i mS mE sS sE fS fE gE κ) (hi : i ∈ C.fe.primal)
    (hu : Spec.WaveSolution S C.fe.dual (standing ω s) (Set.Icc 0 (C.D.N * C.D.dt))) (hsol : C.D.sol = (standing ω s).u1)
    {w₀ : World V} (h₀ : w₀.Fresh) {r : Ref} {w₁ : World V} (h : scriptSetup C w₀ = (.ok r, w₁)) {A : Mat} (hA : C.Returns false A)
    (x : Vec) (hx : ∀ d < A.size, A.mult x d = w₁.heap r d) :
    Spec.misfit C.S C.D C.D.ind C.D.sol (C.full.field C.fe x)
      ≤ C.D.N * C.D.dt * (3.3 * (modeDens C.D ω mS mE sS sE fS fE gE κ / C.D.gData) + 14.3 * modeErr C.D ω mS mE + 3e-9) := by
  obtain ⟨xs, hX, hE⟩ := standing_energy hb hC hB hS hPsd he hP hdata hlam hNpos hq0 hq hqs hwp hfw hsmall ho hK hm hi hu hsol h₀ h hA x hx
  have hdt := hP.dt
  have key := misfit_le hC.disc hPsd hP hdata (u := C.D.sol) (X := C.full.field C.fe x) (Xs := C.full.field C.fe xs)
    (M := modeErr C.D ω mS mE) (fun I => by rw [hsol]; exact (standing_comb ω s I).1) (fun k hk t ht => by
      obtain ⟨α1, β1, α2, β2, α3, β3, α4, β4, z, h1, -⟩ := mode_slab (s := s) hm.pos hq0 hq hdt hX hk ht
      rw [hsol, h1, hS]
      exact (he _).trans (mode_dens hm hP.dual hlam hP.primal z).2)
  refine key.trans ?_
  set E := modeDens C.D ω mS mE sS sE fS fE gE κ
  set M := modeErr C.D ω mS mE
  have e1 := div_le_div_of_nonneg_right hE hdata.le
  have e2 : C.D.N * C.D.dt * (3 * (E + C.D.gData * M) + 2.5e-9 * C.D.gData) / C.D.gData
      = C.D.N * C.D.dt * (3 * (E / C.D.gData + M) + 2.5e-9) := by field_simp
  rw [e2] at e1
  have p : 0 ≤ (C.D.N : ℝ) * C.D.dt := by positivity
  have e3 : C.D.N * C.D.dt * (3.3 * (E / C.D.gData) + 14.3 * M + 3e-9)
      = 11 * (C.D.N * C.D.dt * M) + 1.1 * (C.D.N * C.D.dt * (3 * (E / C.D.gData + M) + 2.5e-9)) + 0.25e-9 * (C.D.N * C.D.dt) := by ring
  rw [e3]
  have : 0 ≤ 0.25e-9 * ((C.D.N : ℝ) * C.D.dt) := by positivity
  linarith [mul_le_mul_of_nonneg_left e1 (show (0:ℝ) ≤ 1.1 by norm_num)]

end

/-! ## solve_1d.py -/

section
variable {n : ℕ} {hn : 0 < n} {N : ℤ} {interp : (Mesh1.unit n hn).Broken →ₗ[ℝ] (Mesh1.unit n hn).Broken}
  {ind : (Mesh1.unit n hn).Broken} {om' : DataDomain (Mesh1.unit n hn).Broken} {B : Built (Mesh1.unit n hn).Broken}
  {C : Cfg (Mesh1.unit n hn).Broken} {k : ℕ}

/-- The functions with values in `[0, 1]`, such as indicators of sets. -/
def Mesh1.Fraction (m : Mesh1) (e : m.Broken) : Prop := ∀ i < m.n, ∀ y ∈ Set.Icc (m.x i) (m.x (i + 1)), (m.cell i e).1 y ∈ Set.Icc (0:ℝ) 1

theorem Mesh1.Fraction.nonneg {m : Mesh1} {e : m.Broken} (h : m.Fraction e) : m.Nonneg e := fun i hi y hy => (h i hi y hy).1

theorem Mesh1.Fraction.le {m : Mesh1} {e : m.Broken} (h : m.Fraction e) (v : m.Broken) : m.space.omega e v v ≤ m.space.mass v v := by
  rw [m.space_omega, m.space_mass]
  refine sum_le_sum fun i hi => ?_
  have hi := mem_range.1 hi
  have c := anaCont (m.cell i v)
  refine intervalIntegral.integral_mono_on (m.lt i hi).le ((((anaCont (m.cell i e)).mul c).mul c).intervalIntegrable _ _)
    ((c.mul c).intervalIntegrable _ _) fun y hy => ?_
  rw [mul_assoc]
  exact mul_le_of_le_one_left (mul_self_nonneg _) (h i hi y hy).2

/-- The placeholder is negligible. -/
theorem order_floor (hD : OrderData C k N) (hC : C.Ok) (hN : 0 < N) (hsize : (n : ℝ) * N ^ 4 ≤ 7e11) :
    378000 * n ^ 2 * (13 + 340 * (N / n) ^ 2 + 54 * N ^ 4 * (12528 + 115200 * (N / n : ℝ) ^ 2)) * ((C.D.q + 1) ^ 2 / C.D.dt)
      * ((1e-20) ^ 2 * (C.D.qstar + 1) ^ 2) ≤ 1e-2 * (C.D.gDual * C.D.dt) := by
  have hNR : (1:ℝ) ≤ N := by exact_mod_cast hN
  have hn1 : (1:ℝ) ≤ n := by exact_mod_cast hn
  rw [hD.dual, hD.dt, one_mul, mul_one_div, le_div_iff₀ (by linarith)]
  have hq4 : ((C.D.q : ℝ) + 1) ^ 2 ≤ 16 := by
    have : (C.D.q : ℝ) ≤ 3 := by exact_mod_cast hC.disc.hq
    nlinarith [(Nat.cast_nonneg C.D.q : (0:ℝ) ≤ C.D.q)]
  have hq1 : ((C.D.qstar : ℝ) + 1) ^ 2 ≤ 4 := by
    have : (C.D.qstar : ℝ) ≤ 1 := by exact_mod_cast hD.qstar
    nlinarith [(Nat.cast_nonneg C.D.qstar : (0:ℝ) ≤ C.D.qstar)]
  set M : ℝ := (N : ℝ) with hM
  set Y : ℝ := n ^ 2 * M ^ 6 with hY
  have e : (n:ℝ) ^ 2 * (13 + 340 * (M / n) ^ 2 + 54 * M ^ 4 * (12528 + 115200 * (M / n : ℝ) ^ 2))
      = 13 * n ^ 2 + 340 * M ^ 2 + 676512 * (n ^ 2 * M ^ 4) + 6220800 * M ^ 6 := by field_simp; ring
  have m1 : (1:ℝ) ≤ M ^ 2 := one_le_pow₀ hNR
  have m2 : (1:ℝ) ≤ M ^ 4 := one_le_pow₀ hNR
  have m3 : (1:ℝ) ≤ M ^ 6 := one_le_pow₀ hNR
  have n2 : (1:ℝ) ≤ (n:ℝ) ^ 2 := one_le_pow₀ hn1
  have k1 : (n:ℝ) ^ 2 ≤ Y := by rw [hY]; nlinarith
  have k2 : M ^ 2 ≤ Y := by
    have : M ^ 2 ≤ M ^ 6 := pow_le_pow_right₀ hNR (by norm_num)
    rw [hY]; nlinarith
  have k3 : (n:ℝ) ^ 2 * M ^ 4 ≤ Y := mul_le_mul_of_nonneg_left (pow_le_pow_right₀ hNR (by norm_num)) (by positivity)
  have k4 : M ^ 6 ≤ Y := by rw [hY]; nlinarith
  have hX : 378000 * (n:ℝ) ^ 2 * (13 + 340 * (M / n) ^ 2 + 54 * M ^ 4 * (12528 + 115200 * (M / n : ℝ) ^ 2)) ≤ 2.7e12 * Y := by
    rw [mul_assoc, e]
    have : 0 ≤ Y := by positivity
    norm_num
    linarith
  have hsz : (n * M ^ 4) ^ 2 ≤ (7e11 : ℝ) ^ 2 := pow_le_pow_left₀ (by positivity) hsize 2
  have e2 : Y * M ^ 2 = (n * M ^ 4) ^ 2 := by rw [hY]; ring
  calc 378000 * (n:ℝ) ^ 2 * (13 + 340 * (M / n) ^ 2 + 54 * M ^ 4 * (12528 + 115200 * (M / n : ℝ) ^ 2)) * ((C.D.q + 1) ^ 2 / (1 / M))
        * ((1e-20) ^ 2 * (C.D.qstar + 1) ^ 2) * M
      ≤ 2.7e12 * Y * (16 / (1 / M)) * ((1e-20) ^ 2 * 4) * M := by gcongr
    _ = 1.728e-26 * (Y * M ^ 2) := by field_simp; norm_num; ring
    _ ≤ 1e-2 := by rw [e2]; norm_num at hsz ⊢; linarith

theorem pk_wave {Y : Submodule ℝ (Mesh1.unit n hn).Broken} {j : ℕ} (hY : Y ≤ (Mesh1.unit n hn).lagrange j) (T : Set ℝ) :
    Spec.WaveSolution (Mesh1.unit n hn).space Y (wave1 hn) T := by
  have := C94_solution (sol1_wave (hn := hn) T) (Y := Y) fun y hy => (Mesh1.unit n hn).conforming_of_lagrange (hY hy)
  simp only [Mesh1.path, fn_sin] at this
  exact this

theorem sinI_mem (hk : 1 ≤ k) : sinI hn ∈ (Mesh1.unit n hn).lagrange k := by
  have h : sinI hn ∈ (Mesh1.unit n hn).lagrange 1 := by
    rw [sinI, Mesh1.interp]
    exact Submodule.sum_mem _ fun s _ => Submodule.smul_mem _ _ ((Mesh1.unit n hn).hat_mem s)
  obtain ⟨h1, h2⟩ := (Mesh1.unit n hn).mem_lagrange.1 h
  refine (Mesh1.unit n hn).mem_lagrange.2 ⟨fun i hi => ?_, h2⟩
  obtain ⟨p, hp, e⟩ := h1 i hi
  exact ⟨p, hp.trans hk, e⟩

/-- C114 for solve_1d.py with `ORDER` 1, 2 or 3, `N ≥ 32` slabs and `n ≥ 32` cells, and any data domain which is not fitted to the mesh (so
that its indicator is not lost, C35): the squared misfit of the solution of the linear system is at most `5.6/N² + 1/n² + 3e-9`. -/
theorem C114_solve_1d (hb : construct interp (orderArgs k N (Mesh1.unit n hn).sol1 (Mesh1.unit n hn).dsol1) ⟨ind, false⟩ = (.ok B, om'))
    (hind : (Mesh1.unit n hn).Fraction ind) (hN : 32 ≤ N) (hn1 : 32 ≤ n) (hk : 1 ≤ k) (hsize : (n : ℝ) * N ^ 4 ≤ 7e11)
    (hC : C.Ok) (hB : C.OfBuilt B) (hS : C.S = (Mesh1.unit n hn).space) (hfe : C.fe.primal = (Mesh1.unit n hn).lagrange k)
    {j : ℕ} (hfd : C.fe.dual ≤ (Mesh1.unit n hn).lagrange j)
    {w₀ : World (Mesh1.unit n hn).Broken} (h₀ : w₀.Fresh) {r : Ref} {w₁ : World (Mesh1.unit n hn).Broken}
    (h : scriptSetup C w₀ = (.ok r, w₁)) {A : Mat} (hA : C.Returns false A) (x : Vec) (hx : ∀ d < A.size, A.mult x d = w₁.heap r d) :
    Spec.misfit (Mesh1.unit n hn).space C.D ind (Mesh1.unit n hn).sol1 (C.full.field C.fe x) ≤ 5.6 / N ^ 2 + 1 / n ^ 2 + 3e-9 := by
  have hN0 : 0 < N := by omega
  have hD := order_data hb hN0 hk hB
  obtain ⟨b, -, eB⟩ := construct_facts hb
  have hi : C.D.ind = ind := by rw [hB.D, eB]; simp [builtOf]
  have hsol0 : C.D.sol = (Mesh1.unit n hn).sol1 := by rw [hB.D, eB]; rfl
  have hsol : C.D.sol = (standing tau (sin1 hn)).u1 := by
    rw [hsol0]
    funext t
    exact fn_sin hn (ca t)
  have hdata : C.D.gData = 1e4 := by rw [hB.D, eB]; rfl
  have hNR : (32:ℝ) ≤ N := by exact_mod_cast hN
  have hNR0 : (0:ℝ) < N := by linarith
  have hnR : (32:ℝ) ≤ n := by exact_mod_cast hn1
  have hnR0 : (0:ℝ) < n := by linarith
  have hPsd : C.S.Psd C.D.ind := by rw [hi]; exact hS ▸ (Mesh1.unit n hn).space_psd hind.nonneg
  have hNpos : 0 < C.D.N := by rw [hD.N]; omega
  have hlam : 0 < C.D.lam := by linarith [hD.lam]
  have hdt1 : C.D.dt ≤ 1 / 32 := by rw [hD.dt]; exact one_div_le_one_div_of_le (by norm_num) hNR
  obtain ⟨b1, b2, b3⟩ := order_bound hD hN0 hS hfe.le
  have ho := C107_observable hC hPsd (hS ▸ (Mesh1.unit n hn).space_definite) hD.pos hlam hNpos (by positivity) (by positivity) b1 b2
  rw [b3] at ho
  have hN4 : (N:ℝ) ^ 2 ≤ 1e12 := by
    have h1 : (1:ℝ) ≤ N ^ 2 := one_le_pow₀ (by linarith)
    have h2 : (N:ℝ) ^ 2 ≤ n * N ^ 4 := by
      have e : (n:ℝ) * N ^ 4 = n * N ^ 2 * N ^ 2 := by ring
      rw [e]
      exact le_mul_of_one_le_left (by positivity) (one_le_mul_of_one_le_of_one_le (by linarith) h1)
    norm_num at hsize ⊢
    linarith
  have key := C114_fit hb hC hB hS hPsd (by rw [hi]; exact hind.le) hD.pos (by rw [hdata]; norm_num) hlam hNpos (by rw [hD.q]; exact hk)
    hC.disc.hq (hD.qstar.trans (by norm_num)) hD.wp hD.fw (by
      rw [hdata, hD.dual, hD.dt, one_div, inv_pow, mul_one, ← div_eq_mul_inv, le_div_iff₀ (by positivity)]
      norm_num at hN4 ⊢
      linarith) ho (order_floor hD hC hN0 hsize) (mode1 hn) (by rw [hfe]; exact sinI_mem hk)
    (by rw [← wave1_standing]; exact pk_wave hfd _) hsol h₀ h hA x hx
  rw [hS, hi, hsol0] at key
  refine key.trans ?_
  obtain ⟨m1, m2⟩ := mode1_numbers hn hD.lam hD.primal hD.dual hD.pos.dt hdt1 hn1
  have e0 : (C.D.N : ℝ) * C.D.dt = 1 := by
    have : (C.D.N : ℝ) = N := by
      rw [hD.N]
      exact_mod_cast Int.toNat_of_nonneg (by omega : 0 ≤ N)
    rw [this, hD.dt]; field_simp
  rw [e0, one_mul, hdata]
  set E := modeDens C.D tau (1 / 2) ((tau ^ 2 * (1 / n) ^ 2 / 8) ^ 2) (tau ^ 2) ((tau ^ 2 * (1 / n) / 2) ^ 2) (2 * (1 / n) * tau ^ 2)
      (2 * (1 / n) * (tau ^ 2 * (1 / n) / 2) ^ 2) (tau ^ 4 * (1 / n) ^ 2) ((1 / n) ^ 2)
  set M := modeErr C.D tau (1 / 2) ((tau ^ 2 * (1 / n) ^ 2 / 8) ^ 2)
  rw [hD.dt] at m1 m2
  have f : ∀ z : ℝ, 32 ≤ z → (1 / z) ^ 4 ≤ 1 / 1024 * (1 / z) ^ 2 := fun z hz => by
    have h1 : (1 / z) ^ 2 ≤ (1 / 32) ^ 2 := pow_le_pow_left₀ (by positivity) (one_div_le_one_div_of_le (by norm_num) hz) 2
    have e : (1 / z) ^ 4 = (1 / z) ^ 2 * (1 / z) ^ 2 := by ring
    rw [e]
    exact mul_le_mul_of_nonneg_right (h1.trans (by norm_num)) (by positivity)
  have f1 := f N hNR
  have f2 := f n hnR
  have e1 : 5.6 / (N:ℝ) ^ 2 = 5.6 * (1 / N) ^ 2 := by ring
  have e2 : 1 / (n:ℝ) ^ 2 = (1 / n) ^ 2 := by ring
  rw [e1, e2]
  have p1 : 0 ≤ (1 / (N:ℝ)) ^ 2 := by positivity
  have p2 : 0 ≤ (1 / (n:ℝ)) ^ 2 := by positivity
  generalize (1 / (N:ℝ)) ^ 2 = X at *
  generalize (1 / (n:ℝ)) ^ 2 = Y at *
  generalize (1 / (N:ℝ)) ^ 4 = X' at *
  generalize (1 / (n:ℝ)) ^ 4 = Y' at *
  rw [div_eq_mul_inv]
  norm_num
  linarith

end

namespace Example
open Mesh1

/-- `omega_ind_nogcc` (solve_1d.py:91-97) on the mesh of the script, where 0.2 is a node. -/
noncomputable def nogcc : msh.Broken := fun i => if i.1 < 32 then msh.space.one i else 0

theorem nogcc_cell {i : ℕ} (hi : i < 160) (y : ℝ) : (msh.cell i nogcc).1 y = if i < 32 then 1 else 0 := by
  rw [msh.cell_apply (show i < msh.n from hi)]
  change (if i < 32 then msh.space.one ⟨i, hi⟩ else 0).1 y = _
  split <;> rfl

/-- It is the indicator of `x ≤ 0.2`. -/
theorem nogcc_apply {i : ℕ} (hi : i < 160) {y : ℝ} (hy : y ∈ Set.Ioo (msh.x i) (msh.x (i + 1))) :
    (msh.cell i nogcc).1 y = if y ≤ 0.2 then 1 else 0 := by
  have h1 : (i:ℝ) / (160:ℕ) < y := hy.1
  have h2 : y < ((i + 1 : ℕ) : ℝ) / (160:ℕ) := hy.2
  rw [nogcc_cell hi]
  by_cases h : i < 32
  · have : ((i + 1 : ℕ) : ℝ) ≤ 32 := by exact_mod_cast h
    rw [if_pos h, if_pos]
    push_cast at h2 this
    norm_num
    linarith
  · have : (32:ℝ) ≤ i := by exact_mod_cast not_lt.1 h
    rw [if_neg h, if_neg]
    push_cast at h1
    norm_num
    linarith

theorem nogcc_fraction : msh.Fraction nogcc := fun i hi y _ => by
  rw [nogcc_cell hi]
  split <;> norm_num

theorem sq_deriv (y : ℝ) : HasDerivAt (fun y => y / 2 - Real.sin (2 * tau * y) / (4 * tau)) (Real.sin (tau * y) * Real.sin (tau * y)) y ∧
    HasDerivAt (fun y => y / 2 + Real.sin (2 * tau * y) / (4 * tau)) (Real.cos (tau * y) * Real.cos (tau * y)) y := by
  have t0 := tau_bounds.1
  have h0 : HasDerivAt (fun y : ℝ => 2 * tau * y) (2 * tau) y := by simpa using (hasDerivAt_id y).const_mul (2 * tau)
  have h1 := ((Real.hasDerivAt_sin _).comp y h0).div_const (4 * tau)
  have h2 : HasDerivAt (fun y : ℝ => y / 2) (1 / 2) y := by simpa using (hasDerivAt_id y).div_const 2
  have e : Real.cos (2 * tau * y) = 2 * Real.cos (tau * y) ^ 2 - 1 := by rw [← Real.cos_two_mul]; ring_nf
  have e' := Real.sin_sq_add_cos_sq (tau * y)
  constructor
  · refine (h2.sub h1).congr_deriv ?_
    rw [e]; field_simp
    nlinarith
  · refine (h2.add h1).congr_deriv ?_
    rw [e]; field_simp
    ring

/-- The data are not small. -/
theorem nogcc_sine : (0.075:ℝ) ≤ msh.space.omega nogcc (sin1 (n := 160) (by norm_num)) (sin1 (n := 160) (by norm_num)) := by
  rw [msh.space_omega]
  have hs : ∀ i < 160, ∀ y, (msh.cell i (sin1 (n := 160) (by norm_num))).1 y = Real.sin (tau * y) := fun i hi y => by
    rw [sin1, msh.cell_fn hi]
    change 1 * Real.sin (2 * Real.pi * y) = _
    rw [one_mul]; rfl
  have sub : range 32 ⊆ range msh.n := range_subset_range.2 (by norm_num [msh, Mesh1.unit])
  refine le_trans ?_ (sum_le_sum_of_subset_of_nonneg sub fun i hi _ => ?_)
  · have e : ∀ i ∈ range 32, (∫ y in (msh.x i)..(msh.x (i + 1)), (msh.cell i nogcc).1 y * (msh.cell i (sin1 (n := 160) (by norm_num))).1 y
        * (msh.cell i (sin1 (n := 160) (by norm_num))).1 y) = ∫ y in (msh.x i)..(msh.x (i + 1)), Real.sin (tau * y) * Real.sin (tau * y) := by
      intro i hi
      have hi := mem_range.1 hi
      refine intervalIntegral.integral_congr fun y _ => ?_
      simp only [nogcc_cell (show i < 160 by omega), hs i (by omega), if_pos hi, one_mul]
    have c : Continuous fun y : ℝ => Real.sin (tau * y) * Real.sin (tau * y) := by fun_prop
    rw [sum_congr rfl e, intervalIntegral.sum_integral_adjacent_intervals fun _ _ => c.intervalIntegrable _ _,
      intervalIntegral.integral_eq_sub_of_hasDerivAt (fun y _ => (sq_deriv y).1) (c.intervalIntegrable _ _)]
    have x0 : msh.x 0 = 0 := by simp [msh, Mesh1.unit]
    have x1 : msh.x 32 = 1 / 5 := by norm_num [msh, Mesh1.unit]
    rw [x0, x1]
    have e2 : Real.sin (2 * tau * (1 / 5)) = Real.sin (Real.pi / 5) := by
      rw [← Real.sin_pi_sub]; congr 1; unfold tau; ring
    have hp := Real.pi_pos
    have h1 : Real.sin (Real.pi / 5) / (4 * tau) ≤ 1 / 40 := by
      unfold tau
      rw [div_le_iff₀ (by positivity)]
      have := Real.sin_le (show 0 ≤ Real.pi / 5 by positivity)
      linarith
    rw [e2]
    simp only [mul_zero, Real.sin_zero, zero_div, sub_zero]
    norm_num at h1 ⊢
    linarith
  · have hi := mem_range.1 hi
    refine intervalIntegral.integral_nonneg (msh.lt i hi).le fun y hy => ?_
    rw [mul_assoc]
    exact mul_nonneg (nogcc_fraction i hi y hy).1 (mul_self_nonneg _)

/-- solve_1d.py with the intended data domain, not marked as fitted. -/
theorem builtF {k : ℕ} (hk : k ≤ 3) : ∃ B om', construct LinearMap.id (orderArgs k 32 msh.sol1 msh.dsol1)
    ⟨nogcc, false⟩ = (.ok B, om') ∧ (cfgK k B).Ok ∧ (cfgK k B).OfBuilt B := by
  have hq : ((if k = 1 then 1 else 0 : ℤ)).toNat = if k = 1 then 1 else 0 := by split <;> rfl
  obtain ⟨b, -, e⟩ := construct_run (interp := LinearMap.id) (a := orderArgs k 32 msh.sol1 msh.dsol1)
    (om := ⟨nogcc, false⟩) (by simp [orderArgs]) (by
      refine ⟨⟨by simp [orderArgs], by simp only [orderArgs]; exact_mod_cast hk⟩, ?_⟩
      simp only [orderArgs]
      split <;> norm_num)
  have hdt : (builtOf LinearMap.id (orderArgs k 32 msh.sol1 msh.dsol1) ⟨nogcc, false⟩ b).D.dt = 1 / 32 := by
    simp [builtOf, orderArgs, Script.args, Script.T]
  refine ⟨_, _, e, ?_, ?_⟩
  · refine ⟨⟨getElmatTime_ok ?_ ?_, ?_⟩, stdSpace_ok _ _, ?_, stdSpace_ok _ _, ?_, stdSpace_ok _ _, rfl,
      stdSpace_ok _ _, rfl⟩
    · simpa [cfgK, cfg1, builtOf, orderArgs] using hk
    · simp only [cfgK, cfg1, builtOf, orderArgs]
      split <;> simp
    · rw [cfgK, cfg1, hdt]; norm_num
    · simp only [cfgK, cfg1, builtOf, orderArgs, stdSpace, hq]; rfl
    · simp only [cfgK, cfg1, builtOf, orderArgs, stdSpace, hq]; rfl
  · constructor <;> simp [cfgK, cfg1, builtOf, QuadRule.currentPts, QuadRule.tWeights, gaussRadau]

/-- The squared norm of the data: the misfit of the zero function. -/
theorem nogcc_data {D : Disc msh.Broken} (hN : D.N = 32) (hdt : D.dt = 1 / 32) : 0.0375 ≤ Spec.misfit msh.space D nogcc msh.sol1 0 := by
  have hv : ∀ k t, Spec.val D.q D.dt k ((0 : Field msh.Broken) 0) t = 0 := fun k t => by
    simp [Spec.val]
  have e : ∀ k ∈ range 32, Spec.slabInt D.dt k (fun t => msh.space.omega nogcc (msh.sol1 t - Spec.val D.q D.dt k ((0 : Field msh.Broken) 0) t)
      (msh.sol1 t - Spec.val D.q D.dt k ((0 : Field msh.Broken) 0) t))
      = msh.space.omega nogcc (sin1 (n := 160) (by norm_num)) (sin1 (n := 160) (by norm_num))
        * ∫ t in (k * D.dt)..((k + 1 : ℕ) * D.dt), Real.cos (tau * t) * Real.cos (tau * t) := by
    intro k _
    rw [← intervalIntegral.integral_const_mul, Spec.slabInt]
    refine intervalIntegral.integral_congr fun t _ => ?_
    have h1 : msh.sol1 t = Real.cos (tau * t) • sin1 (n := 160) (by norm_num) := fn_sin (n := 160) (by norm_num) (ca t)
    simp only [hv, sub_zero]
    rw [h1, map_smul, map_smul, LinearMap.smul_apply, smul_eq_mul, smul_eq_mul]
    ring
  have c : Continuous fun y : ℝ => Real.cos (tau * y) * Real.cos (tau * y) := by fun_prop
  have hint := intervalIntegral.sum_integral_adjacent_intervals (a := fun k : ℕ => (k:ℝ) * D.dt) (n := 32) (μ := MeasureTheory.volume)
    (f := fun y : ℝ => Real.cos (tau * y) * Real.cos (tau * y)) fun _ _ => c.intervalIntegrable _ _
  rw [Spec.misfit, hN, sum_congr rfl e, ← mul_sum, hint,
    intervalIntegral.integral_eq_sub_of_hasDerivAt (fun y _ => (sq_deriv y).2) (c.intervalIntegrable _ _), hdt]
  have e1 : Real.sin (2 * tau * ((32:ℕ) * (1 / 32))) = 0 := by
    have : 2 * tau * (((32:ℕ):ℝ) * (1 / 32)) = ((4:ℕ):ℝ) * Real.pi := by unfold tau; push_cast; ring
    rw [this]; exact Real.sin_nat_mul_pi 4
  rw [e1]
  have := nogcc_sine
  simp only [Nat.cast_zero, zero_mul, mul_zero, Real.sin_zero, zero_div, add_zero, sub_zero]
  norm_num at this ⊢
  linarith

section
variable {interp : msh.Broken →ₗ[ℝ] msh.Broken} {om' : DataDomain msh.Broken} {B : Built msh.Broken} {C : Cfg msh.Broken} {k : ℕ}

/-- C114 with the numbers of solve_1d.py (32 slabs, 160 cells, `ORDER` 1, 2 or 3, data on `x ≤ 0.2`), the data domain not marked as fitted:
the squared misfit is at most 15 per cent of the squared norm of the data.  (With the script as it is the solution is zero, C108: the
misfit is the norm of the data.) -/
theorem C114_script (hb : construct interp (orderArgs k 32 msh.sol1 msh.dsol1) ⟨nogcc, false⟩ = (.ok B, om')) (hk : 1 ≤ k)
    (hC : C.Ok) (hB : C.OfBuilt B) (hS : C.S = msh.space) (hfe : C.fe.primal = msh.lagrange k) {j : ℕ} (hfd : C.fe.dual ≤ msh.lagrange j)
    {w₀ : World msh.Broken} (h₀ : w₀.Fresh) {r : Ref} {w₁ : World msh.Broken}
    (h : scriptSetup C w₀ = (.ok r, w₁)) {A : Mat} (hA : C.Returns false A) (x : Vec) (hx : ∀ d < A.size, A.mult x d = w₁.heap r d) :
    Spec.misfit msh.space C.D nogcc msh.sol1 (C.full.field C.fe x) ≤ 0.15 * Spec.misfit msh.space C.D nogcc msh.sol1 0 := by
  have h1 := C114_solve_1d hb nogcc_fraction le_rfl (by norm_num) hk (by norm_num) hC hB hS hfe hfd h₀ h hA x hx
  have hD : OrderData C k 32 := order_data hb (by norm_num) hk hB
  have h2 := nogcc_data (D := C.D) (by rw [hD.N]; rfl) (by rw [hD.dt]; norm_num)
  norm_num at h1 h2 ⊢
  linarith

/-- Such a solution exists, for each order. -/
example {k : ℕ} (h1 : 1 ≤ k) (h3 : k ≤ 3) : ∃ B om', construct LinearMap.id (orderArgs k 32 msh.sol1 msh.dsol1) ⟨nogcc, false⟩ = (.ok B, om') ∧
    ∃ w₁ A x, scriptSetup (cfgK k B) (freshWorld fun _ => 0) = (.ok .rhs, w₁) ∧ (cfgK k B).Returns false A ∧ A.UniquelySolvable ∧
      (∀ d < A.size, A.mult x d = w₁.heap .rhs d) ∧
      Spec.misfit msh.space (cfgK k B).D nogcc msh.sol1 ((cfgK k B).full.field (cfgK k B).fe x)
        ≤ 0.15 * Spec.misfit msh.space (cfgK k B).D nogcc msh.sol1 0 := by
  obtain ⟨B, om', hb, hC, hB⟩ := builtF h3
  obtain ⟨w₁, h, -⟩ := scriptSetup_run (C := cfgK k B) (freshWorld_fresh fun _ => 0) (freshWorld_noFail _)
  obtain ⟨v₀, ops, v₁, g₀, hops, hA'⟩ := returns (cfgK k B) false
  have hi : (cfgK k B).D.ind = nogcc := by
    obtain ⟨b, -, e⟩ := construct_facts hb
    rw [hB.D, e]; simp [builtOf]
  have hU := (C107_solve_1d (C := cfgK k B) (N := 32) hb (by norm_num) h1 (by norm_num) hC hB rfl
    (by rw [hi]; exact nogcc_fraction.nonneg) (msh.pk_primal k).le (msh.pk_indep k) g₀ ops hops hA').2
  obtain ⟨x, hx, -⟩ := hU (w₁.heap .rhs)
  have hd : (msh.pk k).dual ≤ msh.lagrange 1 := Submodule.span_le.2 (by
    rintro _ ⟨s, -, rfl⟩
    exact msh.hat_mem s)
  exact ⟨B, om', hb, w₁, _, x, h, ⟨v₀, ops, v₁, g₀, hops, hA'⟩, hU, hx,
    C114_script hb h1 hC hB rfl (msh.pk_primal k) hd (freshWorld_fresh _) h ⟨v₀, ops, v₁, g₀, hops, hA'⟩ x hx⟩

end

end Example
end Dxss
