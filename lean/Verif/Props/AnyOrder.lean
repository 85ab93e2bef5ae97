import Verif.Lemmas.TimePoly
import Verif.Lemmas.Quadratic
import Verif.Lemmas.GridElliptic
import Verif.Props.Wave3Error

/-!
# Property C106: elements of every order

C92 and C102 are about elements of lowest order, where boundary values and jumps of the gradient determine a function.  For elements
of higher order they do not; the penalty on the residual of the wave equation is needed as well.
-/

namespace Dxss
open Finset
variable {V : Type} [AddCommGroup V] [Module ℝ V]

/-- A finite element function without boundary values, without jumps of the gradient and with vanishing elementwise Laplacian is zero. -/
def Cfg.Elliptic (C : Cfg V) : Prop :=
  ∀ u ∈ C.fe.primal, C.S.pen u u = 0 → C.S.ghost u u = 0 → C.S.lap u = 0 → u = 0

/-- C106: a discrete state of zero energy has zero initial state; no data and no initial values are needed. -/
theorem C106_start {C : Cfg V} (hC : C.Ok) (hS : C.S.Psd C.D.ind) (hd : C.S.Definite) (hp : C.D.Positive) (hlam : 0 < C.D.lam)
    (he : C.Elliptic) (hN : 0 < C.D.N) (x : Vec) (hz : Spec.energy C.S C.D C.D.ind (C.full.field C.fe x) = 0) :
    C.full.field C.fe x 0 0 = 0 ∧ C.full.field C.fe x 1 0 = 0 := by
  have hw := hp.weights
  have hdt := hp.dt
  have hq := hC.disc.hq
  have loc : ∀ s : ℝ, (((0:ℕ) : ℝ) * C.D.dt + s * C.D.dt - (0:ℕ) * C.D.dt) / C.D.dt = s := by
    intro s; field_simp; ring
  set U := C.full.field C.fe x with hU
  have vloc : ∀ (q : ℕ) (F : ℤ → V) (s : ℝ), Spec.val q C.D.dt 0 F ((0:ℕ) * C.D.dt + s * C.D.dt)
      = comb (q + 1) (phi q) (blk q 0 F) s := by
    intro q F s; simp only [Spec.val, comb, blk, loc]
  have dloc : ∀ (F : ℤ → V) (s : ℝ), Spec.valDt C.D.q C.D.dt 0 F ((0:ℕ) * C.D.dt + s * C.D.dt)
      = (1 / C.D.dt) • comb (C.D.q + 1) (dphi C.D.q) (blk C.D.q 0 F) s := by
    intro F s; rw [valDt_eq hq, comb_smul_right]; simp only [comb, dphiT, loc]
  have parts : ∀ s ∈ Set.Icc (0:ℝ) 1,
      C.S.pen (comb (C.D.q + 1) (phi C.D.q) (blk C.D.q 0 (U 0)) s) (comb (C.D.q + 1) (phi C.D.q) (blk C.D.q 0 (U 0)) s) = 0 ∧
      C.S.ghost (comb (C.D.q + 1) (phi C.D.q) (blk C.D.q 0 (U 0)) s) (comb (C.D.q + 1) (phi C.D.q) (blk C.D.q 0 (U 0)) s) = 0 ∧
      comb (C.D.q + 1) (dphi C.D.q) (blk C.D.q 0 (U 0)) s
        = C.D.dt • comb (C.D.q + 1) (phi C.D.q) (blk C.D.q 0 (U 1)) s ∧
      comb (C.D.q + 1) (dphi C.D.q) (blk C.D.q 0 (U 1)) s
        = C.D.dt • C.S.lap (comb (C.D.q + 1) (phi C.D.q) (blk C.D.q 0 (U 0)) s) := by
    intro s hs
    have h0 := energy_zero_pointwise hC.disc hS hw U hz 0 hN s hs
    simp only [eDens, dualAt, primalAt, vloc, dloc] at h0
    set u1 := comb (C.D.q + 1) (phi C.D.q) (blk C.D.q 0 (U 0)) s
    set u2 := comb (C.D.q + 1) (phi C.D.q) (blk C.D.q 0 (U 1)) s
    set z1 := comb (C.D.qstar + 1) (phi C.D.qstar) (blk C.D.qstar 0 (U 2)) s
    set z2 := comb (C.D.qstar + 1) (phi C.D.qstar) (blk C.D.qstar 0 (U 3)) s
    set du1 := comb (C.D.q + 1) (dphi C.D.q) (blk C.D.q 0 (U 0)) s
    set du2 := comb (C.D.q + 1) (dphi C.D.q) (blk C.D.q 0 (U 1)) s
    have n1 := mul_nonneg hw.data (hS.omega u1)
    have n2 := mul_nonneg hw.dual (dualStab_nonneg hS hw.lam z1 z2)
    have n3 := mul_nonneg hw.primal (primalStab_nonneg hS hw.lam u1 u2 ((1 / C.D.dt) • du1) ((1 / C.D.dt) • du2))
    have p0 := (mul_eq_zero.1 (by linarith : C.D.gPrimal * Spec.primalStab C.S C.D.lam u1 u2
      ((1 / C.D.dt) • du1) ((1 / C.D.dt) • du2) u1 u2 ((1 / C.D.dt) • du1) ((1 / C.D.dt) • du2) = 0)).resolve_left
        hp.primal.ne'
    unfold Spec.primalStab at p0
    have b1 := mul_nonneg hw.lam (hS.pen u1); have b2 := hS.ghost u1
    have b3 := hS.mass (u2 - (1 / C.D.dt) • du1)
    have b4 := hS.h2 ((1 / C.D.dt) • du2 - C.S.lap u1)
    have c3 := sub_eq_zero.1 (hd.mass _ (by linarith : C.S.mass (u2 - (1 / C.D.dt) • du1) _ = 0))
    have c4 := sub_eq_zero.1 (hd.h2 _ (by linarith : C.S.h2 ((1 / C.D.dt) • du2 - C.S.lap u1) _ = 0))
    have hmul : C.D.dt * (1 / C.D.dt) = 1 := by field_simp
    refine ⟨(mul_eq_zero.1 (by linarith : C.D.lam * C.S.pen u1 u1 = 0)).resolve_left hlam.ne', by linarith, ?_, ?_⟩
    · rw [c3, smul_smul, hmul, one_smul]
    · rw [← c4, smul_smul, hmul, one_smul]
  have hmem : ∀ s ∈ Set.Icc (0:ℝ) 1, comb (C.D.q + 1) (phi C.D.q) (blk C.D.q 0 (U 0)) s
      ∈ C.fe.primal ⊓ (nullSpace C.S.pen hS.pen C.S.pen_symm ⊓ nullSpace C.S.ghost hS.ghost C.S.ghost_symm) := by
    intro s hs
    refine ⟨?_, (parts s hs).1, (parts s hs).2.1⟩
    rw [← vloc]
    exact val_mem_primal _ _ _ _ _ _ _
  have key := slab_zero hq C.S.lap hdt.ne' (blk C.D.q 0 (U 0)) (blk C.D.q 0 (U 1))
    (W := C.fe.primal ⊓ (nullSpace C.S.pen hS.pen C.S.pen_symm ⊓ nullSpace C.S.ghost hS.ghost C.S.ghost_symm))
    (fun u hu h0 => he u hu.1 hu.2.1 hu.2.2 h0) hmem (fun s hs => (parts s hs).2.2.1) fun s hs => (parts s hs).2.2.2
  exact ⟨by simpa [blk] using key.1 0 (Nat.zero_le _), by simpa [blk] using key.2 0 (Nat.zero_le _)⟩

/-- C106: a discrete state of zero energy is zero. -/
theorem C106_energy_definite {C : Cfg V} (hC : C.Ok) (hS : C.S.Psd C.D.ind) (hd : C.S.Definite) (hp : C.D.Positive)
    (hlam : 0 < C.D.lam) (he : C.Elliptic) (hi : C.fe.Indep) (x : Vec)
    (hz : Spec.energy C.S C.D C.D.ind (C.full.field C.fe x) = 0) : ∀ d < C.full.size, x d = 0 :=
  full_vec_zero hi hC.full hC.fullN fun n hn => energy_zero_of_start hC.disc hS hd hp _
    (C106_start hC hS hd hp hlam he (Nat.zero_lt_of_lt hn) x hz) hz n hn

/-- The vector with the given entries. -/
def extend (k : ℕ) (y : Fin k → ℝ) : Vec := fun d => if h : d < k then y ⟨d, h⟩ else 0

omit [Module ℝ V] in
theorem flip_add (U W : Field V) : Spec.flipDual (U + W) = Spec.flipDual U + Spec.flipDual W := by
  funext c i
  simp only [Spec.flipDual, Pi.add_apply]
  split
  · rw [neg_add]
  · rfl

theorem flip_smul (a : ℝ) (U : Field V) : Spec.flipDual (a • U) = a • Spec.flipDual U := by
  funext c i
  simp only [Spec.flipDual, Pi.smul_apply]
  split
  · rw [smul_neg]
  · rfl

theorem flip_sum {ι : Type*} (s : Finset ι) (f : ι → Field V) : Spec.flipDual (∑ i ∈ s, f i) = ∑ i ∈ s, Spec.flipDual (f i) :=
  map_sum (⟨⟨Spec.flipDual, flip_add⟩, flip_smul⟩ : Field V →ₗ[ℝ] Field V) f s

/-- The energy is a quadratic function of the coefficients. -/
theorem energy_quad {C : Cfg V} (hC : C.Ok) : ∃ c : ℕ → ℕ → ℝ, ∀ x, Spec.energy C.S C.D C.D.ind (C.full.field C.fe x)
    = ∑ d ∈ range C.full.size, ∑ e ∈ range C.full.size, x d * x e * c d e := by
  refine ⟨fun d e => evalForm C.S C.D.ind (C.D.stForm false) (C.full.field C.fe (unitVec d)) (Spec.flipDual (C.full.field C.fe (unitVec e)))
    + 1e-20 * C.S.mass (C.full.field C.fe (unitVec e) 0 0) (C.full.field C.fe (unitVec d) 2 0), fun x => ?_⟩
  have h := C14_stability_identity C.S C.D hC.disc C.D.ind (C.full.field C.fe x)
  rw [eq_sub_iff_add_eq] at h
  rw [← h, field_eq_sum C.full C.fe hC.full x, flip_sum, evalForm_sum_left]
  simp only [Finset.sum_apply, map_sum, LinearMap.sum_apply, evalForm_sum_right, Pi.smul_apply, map_smul, LinearMap.smul_apply,
    smul_eq_mul, flip_smul, evalForm_smul_left, evalForm_smul_right]
  rw [mul_sum, ← sum_add_distrib]
  refine sum_congr rfl fun d _ => ?_
  rw [mul_sum, mul_sum, ← sum_add_distrib]
  refine sum_congr rfl fun e _ => ?_
  ring

/-- A quadratic function of the entries. -/
def quad {k : ℕ} (c : ℕ → ℕ → ℝ) (y : Fin k → ℝ) : ℝ := ∑ d, ∑ e, y d * y e * c d e

theorem quad_range {k : ℕ} (c : ℕ → ℕ → ℝ) (x : Vec) :
    ∑ d ∈ range k, ∑ e ∈ range k, x d * x e * c d e = quad (k := k) c fun d => x d := by
  rw [← Fin.sum_univ_eq_sum_range (fun d => ∑ e ∈ range k, x d * x e * c d e)]
  exact sum_congr rfl fun d _ => (Fin.sum_univ_eq_sum_range (fun e => x d * x e * c d e) _).symm

theorem quad_cont {k : ℕ} (c : ℕ → ℕ → ℝ) : Continuous (quad (k := k) c) := by
  unfold quad
  fun_prop

theorem quad_smul {k : ℕ} (c : ℕ → ℕ → ℝ) (r : ℝ) (y : Fin k → ℝ) : quad c (r • y) = r ^ 2 * quad c y := by
  simp only [quad, Pi.smul_apply, smul_eq_mul, mul_sum]
  exact sum_congr rfl fun d _ => sum_congr rfl fun e _ => by ring

theorem extend_apply {k : ℕ} (y : Fin k → ℝ) (d : Fin k) : extend k y d = y d := by simp [extend]

/-- C106: discrete observability, with some constant, on every mesh and for elements of every order. -/
theorem C106_observable {C : Cfg V} (hC : C.Ok) (hS : C.S.Psd C.D.ind) (hd : C.S.Definite) (hp : C.D.Positive)
    (hlam : 0 < C.D.lam) (he : C.Elliptic) (hi : C.fe.Indep) (hN : 0 < C.D.N) : ∃ K, 0 ≤ K ∧ C.Observable K := by
  obtain ⟨c, hc⟩ := energy_quad hC
  have ha : ∀ x, C.S.mass (C.full.field C.fe x 0 0) (C.full.field C.fe x 0 0)
      = ∑ d ∈ range C.full.size, ∑ e ∈ range C.full.size, x d * x e
        * C.S.mass (C.full.field C.fe (unitVec d) 0 0) (C.full.field C.fe (unitVec e) 0 0) := by
    intro x
    rw [field_eq_sum C.full C.fe hC.full x]
    simp only [Finset.sum_apply, map_sum, LinearMap.sum_apply, Pi.smul_apply, map_smul, LinearMap.smul_apply, smul_eq_mul]
    refine sum_congr rfl fun d _ => ?_
    rw [mul_sum]
    refine sum_congr rfl fun e _ => ?_
    rw [C.S.mass_symm]; ring
  have hpos : ∀ y : Fin C.full.size → ℝ, y ≠ 0 → 0 < quad c y := by
    intro y hy
    have e : quad c y = Spec.energy C.S C.D C.D.ind (C.full.field C.fe (extend _ y)) := by
      rw [hc, quad_range]
      congr 1
      funext d
      rw [extend_apply]
    rw [e]
    refine lt_of_le_of_ne (C14_energy_nonneg C.S C.D C.D.ind hS hp.weights _) fun h0 => hy ?_
    funext d
    have := C106_energy_definite hC hS hd hp hlam he hi _ h0.symm d d.2
    rwa [extend_apply] at this
  obtain ⟨K, hK0, hK⟩ := quad_le (quad fun d e => C.S.mass (C.full.field C.fe (unitVec d) 0 0) (C.full.field C.fe (unitVec e) 0 0)) (quad c)
    (quad_cont _) (quad_cont _) (quad_smul _) (quad_smul _) hpos
  refine ⟨K, hK0, fun x => ?_, C106_start hC hS hd hp hlam he hN⟩
  rw [ha, hc, quad_range, quad_range]
  exact hK _

/-- C106: the space-time matrix has exactly one solution for every right-hand side, with elements of every order, for every data domain
(also with no data at all) and without initial values, as soon as the placeholder `1e-20` is small compared with a constant of
observability, which exists. -/
theorem C106_unique_solution {C : Cfg V} (hC : C.Ok) (hS : C.S.Psd C.D.ind) (hd : C.S.Definite) (hp : C.D.Positive)
    (hlam : 0 < C.D.lam) (he : C.Elliptic) (hi : C.fe.Indep) (hN : 0 < C.D.N) : (∃ K, 0 ≤ K ∧ C.Observable K) ∧
    ∀ K, C.Observable K → (K * ((1e-20) ^ 2 * (C.D.qstar + 1) ^ 2) < C.D.gDual * C.D.dt → ∀ (w₀ : World V), w₀.Fresh → ∀ (ops : List (Op V)),
      (∀ op ∈ ops, ¬ op.OtherFlag false) → ∀ (A : Mat) (w₁ : World V),
        getSpacetimeMatrix C false (runOps C ops w₀) = (.ok A, w₁) → A.size = C.full.size ∧ A.UniquelySolvable) := by
  exact ⟨C106_observable hC hS hd hp hlam he hi hN, fun K ho hK w₀ h₀ ops hops A w₁ h => C68_observable_unique_solution hC hS hd hp hi ho hK h₀ ops hops h⟩

/-- Green's formula for functions without jumps of the gradient, a bound for the boundary fluxes and Poincaré's inequality give C106's
hypothesis; this is how it holds on triangulations such as that of solve_2d.py. -/
theorem elliptic_of_green {C : Cfg V}
    (green : ∀ u ∈ C.fe.primal, C.S.ghost u u = 0 → C.S.mass (C.S.lap u) u + C.S.stiff u u - C.S.nit u u = 0)
    (flux : ∀ u ∈ C.fe.primal, C.S.pen u u = 0 → C.S.nit u u = 0)
    (poincare : ∀ u ∈ C.fe.primal, C.S.pen u u = 0 → C.S.stiff u u = 0 → u = 0) : C.Elliptic := by
  intro u hu hp hg hl
  have h1 := green u hu hg
  rw [hl, map_zero, LinearMap.zero_apply, flux u hu hp] at h1
  exact poincare u hu hp (by linarith)

/-- C106 on every mesh of an interval, with continuous elements of every order. -/
theorem C106_interval {m : Mesh1} {C : Cfg m.Broken} (hC : C.Ok) (hS : C.S = m.space) (hind : m.Nonneg C.D.ind) (hp : C.D.Positive)
    (hlam : 0 < C.D.lam) (hN : 0 < C.D.N) {k : ℕ} (hfe : C.fe.primal ≤ m.lagrange k) (hi : C.fe.Indep) :
    (∀ x, Spec.energy C.S C.D C.D.ind (C.full.field C.fe x) = 0 → ∀ d < C.full.size, x d = 0) ∧ (∃ K, 0 ≤ K ∧ C.Observable K) ∧
    ∀ K, C.Observable K → (K * ((1e-20) ^ 2 * (C.D.qstar + 1) ^ 2) < C.D.gDual * C.D.dt → ∀ (w₀ : World m.Broken), w₀.Fresh → ∀ (ops : List (Op m.Broken)),
      (∀ op ∈ ops, ¬ op.OtherFlag false) → ∀ (A : Mat) (w₁ : World m.Broken),
        getSpacetimeMatrix C false (runOps C ops w₀) = (.ok A, w₁) → A.size = C.full.size ∧ A.UniquelySolvable) := by
  have hPsd : C.S.Psd C.D.ind := hS ▸ m.space_psd hind
  have hd : C.S.Definite := hS ▸ m.space_definite
  have he : C.Elliptic := by
    intro u hu
    rw [hS]
    exact m.elliptic (m.mem_lagrange.1 (hfe hu)).2
  exact ⟨C106_energy_definite hC hPsd hd hp hlam he hi, C106_unique_solution hC hPsd hd hp hlam he hi hN⟩

/-- C106 on every grid of boxes in any number of dimensions, with continuous elements of every order. -/
theorem C106_grid {n : ℕ} {m : Grid n} {C : Cfg m.Broken} (hC : C.Ok) (hS : C.S = m.space) (hind : m.Nonneg C.D.ind) (hp : C.D.Positive)
    (hlam : 0 < C.D.lam) (hN : 0 < C.D.N) {k : ℕ} (hfe : C.fe.primal ≤ m.lagrange k) (hi : C.fe.Indep) :
    (∀ x, Spec.energy C.S C.D C.D.ind (C.full.field C.fe x) = 0 → ∀ d < C.full.size, x d = 0) ∧ (∃ K, 0 ≤ K ∧ C.Observable K) ∧
    ∀ K, C.Observable K → (K * ((1e-20) ^ 2 * (C.D.qstar + 1) ^ 2) < C.D.gDual * C.D.dt → ∀ (w₀ : World m.Broken), w₀.Fresh → ∀ (ops : List (Op m.Broken)),
      (∀ op ∈ ops, ¬ op.OtherFlag false) → ∀ (A : Mat) (w₁ : World m.Broken),
        getSpacetimeMatrix C false (runOps C ops w₀) = (.ok A, w₁) → A.size = C.full.size ∧ A.UniquelySolvable) := by
  have hPsd : C.S.Psd C.D.ind := hS ▸ m.space_psd hind
  have hd : C.S.Definite := hS ▸ m.space_definite
  have he : C.Elliptic := by
    refine elliptic_of_green (fun u hu hg => ?_) (fun u hu h0 => ?_) fun u hu h0 h1 => ?_
    · rw [hS] at hg ⊢
      exact m.green_broken hg (m.conforming_of_lagrange (hfe hu))
    · rw [hS] at h0 ⊢
      exact m.nit_zero h0
    · rw [hS] at h0 h1
      exact m.zero_of_stiff (m.conforming_of_lagrange (hfe hu)) h0 h1
  exact ⟨C106_energy_definite hC hPsd hd hp hlam he hi, C106_unique_solution hC hPsd hd hp hlam he hi hN⟩

end Dxss
