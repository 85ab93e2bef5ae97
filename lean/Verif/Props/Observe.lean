import Verif.Props.Solvable
import Verif.Props.Scripts

/-!
# Property C68: unique solvability with data in place of initial values

`well_posed=False` is the default of the library and the setting of the solver scripts: no initial values are
imposed, and the state has to be recovered from the data alone.
-/

namespace Dxss
open Finset
set_option linter.unusedSectionVars false
variable {V : Type} [AddCommGroup V] [Module ℝ V]

/-- Discrete observability: the data misfit and the stabilisation terms of a discrete state control its
initial value, with constant `K`, and determine its initial value and velocity. -/
structure Cfg.Observable (C : Cfg V) (K : ℝ) : Prop where
  control : ∀ x, C.S.mass (C.full.field C.fe x 0 0) (C.full.field C.fe x 0 0)
    ≤ K * Spec.energy C.S C.D C.D.ind (C.full.field C.fe x)
  start : ∀ x, Spec.energy C.S C.D C.D.ind (C.full.field C.fe x) = 0 →
    C.full.field C.fe x 0 0 = 0 ∧ C.full.field C.fe x 1 0 = 0

theorem mass_cauchy {S : Space V} {ind : V} (hS : S.Psd ind) (a b : V) :
    S.mass a b ^ 2 ≤ S.mass a a * S.mass b b := by
  have ha := hS.mass a; have hb := hS.mass b
  have key : ∀ r : ℝ, 0 ≤ S.mass a a - 2 * r * S.mass a b + r ^ 2 * S.mass b b := by
    intro r
    have := hS.mass (a - r • b)
    simp only [map_sub, map_smul, LinearMap.sub_apply, LinearMap.smul_apply, smul_eq_mul,
      S.mass_symm b a] at this
    linarith
  rcases hb.eq_or_lt with hb0 | hb0
  · by_contra hne
    have hm : S.mass a b ≠ 0 := by
      intro h0; rw [h0, ← hb0] at hne; simp at hne
    have := key ((S.mass a a + 1) / (2 * S.mass a b))
    have e : 2 * ((S.mass a a + 1) / (2 * S.mass a b)) * S.mass a b = S.mass a a + 1 := by
      field_simp
    rw [e, ← hb0] at this; linarith
  · have := key (S.mass a b / S.mass b b)
    have e : S.mass a a - 2 * (S.mass a b / S.mass b b) * S.mass a b
        + (S.mass a b / S.mass b b) ^ 2 * S.mass b b
        = (S.mass a a * S.mass b b - S.mass a b ^ 2) / S.mass b b := by
      field_simp; ring
    rw [e] at this
    rw [div_nonneg_iff] at this
    rcases this with h | h
    · linarith [h.1]
    · linarith [h.2]

theorem first_slab_le {S : Space V} {D : Disc V} {ind : V} (hS : S.Psd ind) (hw : D.Weights) (hN : 0 < D.N)
    (U : Field V) : (∫ t in ((0 : ℕ) * D.dt)..((0 + 1 : ℕ) * D.dt), eDens S D ind U 0 t) + eBot S D U 0
      ≤ Spec.energy S D ind U := by
  rw [energy_eq]
  exact single_le_sum (f := fun n : ℕ =>
    (∫ t in (n * D.dt)..((n + 1 : ℕ) * D.dt), eDens S D ind U n t) + eBot S D U n)
    (fun n _ => add_nonneg (eInt_nonneg U hS hw n) (eBot_nonneg U hS hw n)) (mem_range.2 hN)

/-- With control of the initial value the placeholder cannot produce a kernel. -/
theorem kernel_energy_of_control {S : Space V} {D : Disc V} (h : D.Ok) {ind : V} (hS : S.Psd ind)
    (hp : D.Positive) {K : ℝ} (hK : K * ((1e-20) ^ 2 * (D.qstar + 1) ^ 2) < D.gDual * D.dt) (U : Field V)
    (hc : S.mass (U 0 0) (U 0 0) ≤ K * Spec.energy S D ind U)
    (hz : Spec.energy S D ind U = 1e-20 * S.mass (U 0 0) (U 2 0)) (hN : 0 < D.N) :
    Spec.energy S D ind U = 0 := by
  have hw := hp.weights
  have h1 := dual_bottom_le h hS hw (ind := ind) U
  have h2 := first_slab_le hS hw (ind := ind) hN U
  have h3 := eBot_nonneg U hS hw 0
  have hcs := mass_cauchy hS (U 0 0) (U 2 0)
  have hE0 : 0 ≤ Spec.energy S D ind U := C14_energy_nonneg S D ind hS hw U
  have ha := hS.mass (U 0 0); have hb := hS.mass (U 2 0)
  set E := Spec.energy S D ind U
  set a := S.mass (U 0 0) (U 0 0)
  set b := S.mass (U 2 0) (U 2 0)
  set m := S.mass (U 0 0) (U 2 0)
  have hq : (0 : ℝ) < (D.qstar + 1) ^ 2 := by positivity
  have hB : D.gDual * D.dt * b ≤ (D.qstar + 1) ^ 2 * E := by
    have h4 : D.gDual * (D.dt / (D.qstar + 1) ^ 2 * b) ≤ E := h1.trans ((le_add_of_nonneg_right h3).trans h2)
    have := mul_le_mul_of_nonneg_left h4 hq.le
    have e : ((D.qstar : ℝ) + 1) ^ 2 * (D.gDual * (D.dt / (D.qstar + 1) ^ 2 * b)) = D.gDual * D.dt * b := by
      field_simp
    rwa [e] at this
  by_contra hne
  have hE : 0 < E := lt_of_le_of_ne hE0 (Ne.symm hne)
  have hg : 0 < D.gDual * D.dt := mul_pos hp.dual hp.dt
  have s1 : E ^ 2 = (1e-20) ^ 2 * m ^ 2 := by rw [hz]; ring
  have s2 : D.gDual * D.dt * E ^ 2 ≤ (1e-20) ^ 2 * (K * E * ((D.qstar + 1) ^ 2 * E)) := by
    rw [s1]
    have t1 : D.gDual * D.dt * m ^ 2 ≤ a * (D.gDual * D.dt * b) := by
      have := mul_le_mul_of_nonneg_left hcs hg.le
      linarith
    have t2 : a * (D.gDual * D.dt * b) ≤ K * E * ((D.qstar + 1) ^ 2 * E) :=
      mul_le_mul hc hB (by positivity) (ha.trans hc)
    have := mul_le_mul_of_nonneg_left (t1.trans t2) (by positivity : (0:ℝ) ≤ (1e-20) ^ 2)
    linarith
  have s3 := mul_lt_mul_of_pos_right hK (by positivity : 0 < E ^ 2)
  nlinarith

theorem observable_kernel {C : Cfg V} (hC : C.Ok) (hS : C.S.Psd C.D.ind) (hd : C.S.Definite)
    (hp : C.D.Positive) (hi : C.fe.Indep) {K : ℝ} (ho : C.Observable K)
    (hK : K * ((1e-20) ^ 2 * (C.D.qstar + 1) ^ 2) < C.D.gDual * C.D.dt) : (stMatOf C false).TrivialKernel := by
  intro x hx
  obtain ⟨x', hx'⟩ := exists_flip hC.full x
  have hpair := assemble_pair C.S C.D.ind (C.D.stForm false) C.fe C.full hC.full x x'
  rw [sum_eq_zero (fun d hd => by
      rw [show (assemble C.S C.D.ind C.fe C.full (C.D.stForm false)).mult x d = 0 from hx d (mem_range.1 hd),
        zero_mul]), hx',
    C14_stability_identity C.S C.D hC.disc] at hpair
  refine full_vec_zero hi hC.full hC.fullN fun n hn => ?_
  have hz := kernel_energy_of_control hC.disc hS hp hK (C.full.field C.fe x) (ho.control x) (by linarith)
    (Nat.zero_lt_of_lt hn)
  exact energy_zero_of_start hC.disc hS hd hp _ (ho.start x hz) hz n hn

/-- C68: with data in place of initial values, whenever `get_spacetime_matrix()` returns a matrix (after any
calls that did not request the one-sided variant), the linear system has exactly one solution for every
right-hand side, provided the data observe the discrete states with a constant that does not reach the
order of `1e40`. -/
theorem C68_observable_unique_solution {C : Cfg V} (hC : C.Ok) (hS : C.S.Psd C.D.ind) (hd : C.S.Definite)
    (hp : C.D.Positive) (hi : C.fe.Indep) {K : ℝ} (ho : C.Observable K)
    (hK : K * ((1e-20) ^ 2 * (C.D.qstar + 1) ^ 2) < C.D.gDual * C.D.dt) {w₀ : World V} (h₀ : w₀.Fresh)
    (ops : List (Op V)) (hops : ∀ op ∈ ops, ¬ op.OtherFlag false) {A : Mat} {w₁ : World V}
    (h : getSpacetimeMatrix C false (runOps C ops w₀) = (.ok A, w₁)) :
    A.size = C.full.size ∧ A.UniquelySolvable := by
  rw [(C32_same_flag_partial h₀ false ops hops).1 A w₁ h]
  refine ⟨rfl, Mat.uniquelySolvable_of_kernel (observable_kernel hC hS hd hp hi ho hK)⟩

/-- Initial values observe every state: C15 is the case `well_posed=True` of C68. -/
theorem C68_initial_values_observe {C : Cfg V} (hC : C.Ok) (hS : C.S.Psd C.D.ind) (hd : C.S.Definite)
    (hp : C.D.Positive) (hwp : C.D.wellPosed = true) (hN : 0 < C.D.N) : C.Observable (C.D.dt / C.D.gJump) where
  control x := by
    have h2 := first_slab_le hS hp.weights hN (C.full.field C.fe x)
    have h1 := eInt_nonneg (C.full.field C.fe x) hS hp.weights 0
    have hb : eBot C.S C.D (C.full.field C.fe x) 0 ≤ Spec.energy C.S C.D C.D.ind (C.full.field C.fe x) := by
      have h1' : 0 ≤ ∫ t in ((0 : ℕ) * C.D.dt)..((0 + 1 : ℕ) * C.D.dt), eDens C.S C.D C.D.ind (C.full.field C.fe x) 0 t := h1
      linarith
    have e : ∀ F : ℤ → V, Spec.val C.D.q C.D.dt 0 F 0 = F 0 := by
      intro F; simpa using val_bottom hC.disc.hq C.D.dt 0 F
    simp only [eBot, if_true, hwp, e, Spec.jumpForm] at hb
    have := hp.jump; have hdt := hp.dt
    have p2 := hS.mass (C.full.field C.fe x 1 0); have p3 := hS.stiff (C.full.field C.fe x 0 0)
    have q : 0 ≤ C.D.gJump * (C.D.dt * C.S.stiff (C.full.field C.fe x 0 0) (C.full.field C.fe x 0 0)
        + 1 / C.D.dt * C.S.mass (C.full.field C.fe x 1 0) (C.full.field C.fe x 1 0)) := by positivity
    have r : C.D.gJump * (1 / C.D.dt * C.S.mass (C.full.field C.fe x 0 0) (C.full.field C.fe x 0 0))
        ≤ Spec.energy C.S C.D C.D.ind (C.full.field C.fe x) := by linarith
    have := mul_le_mul_of_nonneg_left r (by positivity : 0 ≤ C.D.dt / C.D.gJump)
    refine le_trans (le_of_eq ?_) this
    field_simp
  start x hz := by
    have := (energy_zero hC.disc hS hd hp hwp _ hz 0 hN).1 0 (Nat.zero_le _)
    simpa using this

/-- The primal finite element functions. -/
def FE.primal (fe : FE V) : Submodule ℝ V := Submodule.span ℝ (fe.bP '' Set.Iio fe.mP)

theorem val_mem_primal (L : FSpace) (fe : FE V) (x : Vec) (q n : ℕ) (dt t : ℝ) :
    Spec.val q dt n (L.field fe x 0) t ∈ fe.primal := by
  refine Submodule.sum_mem _ fun j _ => Submodule.smul_mem _ _ ?_
  unfold FSpace.field
  split
  · exact Submodule.sum_mem _ fun s hs => Submodule.smul_mem _ _
      (Submodule.subset_span ⟨s, mem_range.1 hs, rfl⟩)
  · exact Submodule.zero_mem _

/-- Data, boundary penalty and the penalty on jumps of the gradient together control the finite element functions. -/
def Cfg.Determined (C : Cfg V) (c : ℝ) : Prop :=
  ∀ u ∈ C.fe.primal, C.S.mass u u ≤ c * (C.D.gData * C.S.omega C.D.ind u u + C.D.gPrimal * (C.D.lam * C.S.pen u u + C.S.ghost u u))

/-- Data on a set which, with boundary values and jumps of the gradient, determines the finite element functions, observe every state,
whether or not initial values are imposed. -/
theorem C68_full_data_observe {C : Cfg V} (hC : C.Ok) (hS : C.S.Psd C.D.ind) (hd : C.S.Definite)
    (hp : C.D.Positive) {c : ℝ} (hc0 : 0 ≤ c) (hc : C.Determined c) (hN : 0 < C.D.N) :
    C.Observable (c * ((C.D.q + 1) ^ 2 / C.D.dt)) := by
  have hw := hp.weights
  have hdt := hp.dt
  have hq := hC.disc.hq
  have low : ∀ (U : Field V) t, C.D.gData * C.S.omega C.D.ind (Spec.val C.D.q C.D.dt 0 (U 0) t) (Spec.val C.D.q C.D.dt 0 (U 0) t)
      + C.D.gPrimal * (C.D.lam * C.S.pen (Spec.val C.D.q C.D.dt 0 (U 0) t) (Spec.val C.D.q C.D.dt 0 (U 0) t)
        + C.S.ghost (Spec.val C.D.q C.D.dt 0 (U 0) t) (Spec.val C.D.q C.D.dt 0 (U 0) t))
      ≤ eDens C.S C.D C.D.ind U 0 t := by
    intro U t
    have n2 : 0 ≤ C.D.gDual * dualAt C.S C.D 0 U U t := mul_nonneg hw.dual (dualStab_nonneg hS hw.lam _ _)
    unfold eDens primalAt Spec.primalStab
    set u1 := Spec.val C.D.q C.D.dt 0 (U 0) t
    set u2 := Spec.val C.D.q C.D.dt 0 (U 1) t
    set du1 := Spec.valDt C.D.q C.D.dt 0 (U 0) t
    set du2 := Spec.valDt C.D.q C.D.dt 0 (U 1) t
    have b := mul_nonneg hw.primal (add_nonneg (hS.mass (u2 - du1)) (hS.h2 (du2 - C.S.lap u1)))
    linarith
  constructor
  · intro x
    set U := C.full.field C.fe x
    have h1 := bottom_control hq hdt 0 C.S.mass hS.mass C.S.mass_symm (U 0)
    simp only [Nat.cast_zero, zero_mul] at h1
    have h2 := first_slab_le hS hw hN U
    have h3 := eBot_nonneg U hS hw 0
    have hI : (∫ t in (0:ℝ)..((0 + 1 : ℕ) * C.D.dt), C.S.mass (Spec.val C.D.q C.D.dt 0 (U 0) t)
        (Spec.val C.D.q C.D.dt 0 (U 0) t))
        ≤ c * ∫ t in (0:ℝ)..((0 + 1 : ℕ) * C.D.dt), eDens C.S C.D C.D.ind U 0 t := by
      rw [← intervalIntegral.integral_const_mul]
      refine intervalIntegral.integral_mono_on (by positivity) ((cont_vv hq hq _ _ _).intervalIntegrable _ _)
        ((continuous_const.mul (continuous_eDens C.S C.D hC.disc C.D.ind U 0)).intervalIntegrable _ _)
        fun t _ => (hc _ (val_mem_primal _ _ _ _ _ _ _)).trans (mul_le_mul_of_nonneg_left (low U t) hc0)
    simp only [Nat.cast_zero, zero_mul] at h2
    have hE : (∫ t in (0:ℝ)..((0 + 1 : ℕ) * C.D.dt), eDens C.S C.D C.D.ind U 0 t)
        ≤ Spec.energy C.S C.D C.D.ind U := by linarith
    have h4 := h1.trans (hI.trans (mul_le_mul_of_nonneg_left hE hc0))
    have h5 := mul_le_mul_of_nonneg_left h4 (by positivity : 0 ≤ (C.D.q + 1 : ℝ) ^ 2 / C.D.dt)
    have e : (C.D.q + 1 : ℝ) ^ 2 / C.D.dt * (C.D.dt / (C.D.q + 1) ^ 2 * C.S.mass (U 0 0) (U 0 0))
        = C.S.mass (U 0 0) (U 0 0) := by field_simp
    rw [e] at h5
    linarith
  · intro x hz
    set U := C.full.field C.fe x
    have pt := energy_zero_pointwise hC.disc hS hw U hz 0 hN
    have loc : ∀ s : ℝ, (((0 : ℕ) : ℝ) * C.D.dt + s * C.D.dt - (0 : ℕ) * C.D.dt) / C.D.dt = s := by
      intro s; field_simp; ring
    have vloc : ∀ (F : ℤ → V) (s : ℝ), Spec.val C.D.q C.D.dt 0 F ((0 : ℕ) * C.D.dt + s * C.D.dt)
        = comb (C.D.q + 1) (phi C.D.q) (blk C.D.q 0 F) s := by
      intro F s; simp only [Spec.val, comb, blk, loc]
    have dloc : ∀ (F : ℤ → V) (s : ℝ), Spec.valDt C.D.q C.D.dt 0 F ((0 : ℕ) * C.D.dt + s * C.D.dt)
        = (1 / C.D.dt) • comb (C.D.q + 1) (dphi C.D.q) (blk C.D.q 0 F) s := by
      intro F s; rw [valDt_eq hq, comb_smul_right]; simp only [comb, dphiT, loc]
    have h1 : ∀ s ∈ Set.Icc (0:ℝ) 1, comb (C.D.q + 1) (phi C.D.q) (blk C.D.q 0 (U 0)) s = 0 := by
      intro s hs
      have l := low U ((0 : ℕ) * C.D.dt + s * C.D.dt)
      rw [pt s hs] at l
      have k := hc (Spec.val C.D.q C.D.dt 0 (U 0) ((0 : ℕ) * C.D.dt + s * C.D.dt)) (val_mem_primal _ _ _ _ _ _ _)
      have := mul_le_mul_of_nonneg_left l hc0
      rw [mul_zero] at this
      rw [← vloc]
      exact hd.mass _ (le_antisymm (k.trans this) (hS.mass _))
    have z1 := comb_phi_zero hq (blk C.D.q 0 (U 0)) h1
    have z1' : ∀ j ≤ C.D.q, U 0 j = 0 := fun j hj => by simpa [blk] using z1 j hj
    refine ⟨by simpa using z1' 0 (Nat.zero_le _), ?_⟩
    have p0 := pt 0 ⟨le_rfl, zero_le_one⟩
    have l2 : C.D.gPrimal * C.S.mass (Spec.val C.D.q C.D.dt 0 (U 1) ((0 : ℕ) * C.D.dt + 0 * C.D.dt)
          - Spec.valDt C.D.q C.D.dt 0 (U 0) ((0 : ℕ) * C.D.dt + 0 * C.D.dt)) (Spec.val C.D.q C.D.dt 0 (U 1) ((0 : ℕ) * C.D.dt + 0 * C.D.dt)
          - Spec.valDt C.D.q C.D.dt 0 (U 0) ((0 : ℕ) * C.D.dt + 0 * C.D.dt))
        ≤ eDens C.S C.D C.D.ind U 0 ((0 : ℕ) * C.D.dt + 0 * C.D.dt) := by
      have n2 : 0 ≤ C.D.gDual * dualAt C.S C.D 0 U U ((0 : ℕ) * C.D.dt + 0 * C.D.dt) :=
        mul_nonneg hw.dual (dualStab_nonneg hS hw.lam _ _)
      unfold eDens primalAt Spec.primalStab
      set u1 := Spec.val C.D.q C.D.dt 0 (U 0) ((0 : ℕ) * C.D.dt + 0 * C.D.dt)
      set u2 := Spec.val C.D.q C.D.dt 0 (U 1) ((0 : ℕ) * C.D.dt + 0 * C.D.dt)
      set du1 := Spec.valDt C.D.q C.D.dt 0 (U 0) ((0 : ℕ) * C.D.dt + 0 * C.D.dt)
      set du2 := Spec.valDt C.D.q C.D.dt 0 (U 1) ((0 : ℕ) * C.D.dt + 0 * C.D.dt)
      have n1 := mul_nonneg hw.data (hS.omega u1)
      have b := mul_nonneg hw.primal (add_nonneg (add_nonneg (mul_nonneg hw.lam (hS.pen u1)) (hS.ghost u1))
        (hS.h2 (du2 - C.S.lap u1)))
      linarith
    have hd0 : Spec.valDt C.D.q C.D.dt 0 (U 0) ((0 : ℕ) * C.D.dt + 0 * C.D.dt) = 0 := by
      rw [dloc]
      have : comb (C.D.q + 1) (dphi C.D.q) (blk C.D.q 0 (U 0)) 0 = 0 := by
        unfold comb
        exact sum_eq_zero fun j hj => by rw [z1 j (Nat.lt_succ_iff.1 (mem_range.1 hj)), smul_zero]
      rw [this, smul_zero]
    rw [hd0, sub_zero, p0] at l2
    have hv : Spec.val C.D.q C.D.dt 0 (U 1) ((0 : ℕ) * C.D.dt + 0 * C.D.dt) = U 1 0 := by
      simpa using val_bottom hq C.D.dt 0 (U 1)
    rw [hv] at l2
    refine hd.mass _ (le_antisymm ?_ (hS.mass _))
    by_contra hne
    push Not at hne
    exact absurd (mul_pos hp.primal hne) (not_lt.2 l2)

namespace Example

/-- The elements of the 1D script on a single cell are determined by their boundary values. -/
theorem fe3_determined {u : V3} (hu : u ∈ fe3.primal) : modeSpace.mass u u ≤ modeSpace.pen u u := by
  have h2 : u.2.2 = 0 := by
    have : fe3.primal ≤ LinearMap.ker ((LinearMap.snd ℝ ℝ ℝ).comp (LinearMap.snd ℝ ℝ (ℝ × ℝ))) := by
      refine Submodule.span_le.2 ?_
      rintro _ ⟨s, hs, rfl⟩
      simp only [fe3, SetLike.mem_coe, LinearMap.mem_ker]
      split <;> rfl
    exact this hu
  have hm : modeSpace.mass u u = u.1 ^ 2 + u.1 * u.2.1 + u.2.1 ^ 2 / 3 := by
    rw [modeSpace_mass]
    simp only [ι_apply, h2, zero_mul, add_zero]
    have e : ∀ x : ℝ, (u.1 + u.2.1 * x) * (u.1 + u.2.1 * x) = u.1 ^ 2 + (2 * u.1 * u.2.1) * x + u.2.1 ^ 2 * x ^ 2 := by
      intro x; ring
    simp only [e]
    rw [intervalIntegral.integral_add, intervalIntegral.integral_add]
    · rw [intervalIntegral.integral_const_mul, intervalIntegral.integral_const_mul, integral_id, integral_pow]
      simp; ring
    all_goals exact Continuous.intervalIntegrable (by fun_prop) _ _
  have hp : modeSpace.pen u u = u.1 * u.1 + (u.1 + u.2.1) * (u.1 + u.2.1) := by
    change (ι u).1 0 * (ι u).1 0 + (ι u).1 1 * (ι u).1 1 = _
    simp [ι_apply, h2]
  rw [hm, hp]
  nlinarith [sq_nonneg (u.1 + u.2.1), sq_nonneg u.1, sq_nonneg (2 * u.1 + u.2.1), sq_nonneg u.2.1]

theorem modeSpace_psd0 : modeSpace.Psd 0 :=
  { modeSpace_psd with omega := fun v => by rw [map_zero]; exact le_rfl }

/-- C68 applies to the configuration of the 1D script on one cell. -/
theorem scriptS_solvable (sol : ℝ → V3) : ∃ B om', construct LinearMap.id (Script.d1.args sol sol)
    (Script.d1.dataDomain (1, 0, 0)) = (.ok B, om') ∧ (cfgS B).Ok ∧ (cfgS B).OfBuilt B ∧
    B.D.wellPosed = false ∧ ∀ heap, ∃ A w₁,
      getSpacetimeMatrix (cfgS B) false (runOps (cfgS B) [.setupFE] (freshWorld heap)) = (.ok A, w₁) ∧
      A = stMatOf (cfgS B) false ∧ A.UniquelySolvable := by
  obtain ⟨b, -, e⟩ := construct_run (interp := LinearMap.id) (a := Script.d1.args sol sol)
    (om := Script.d1.dataDomain (1, 0, 0)) (by simp [Script.args, Script.N]) (Script.d1.supported sol sol)
  have hB := builtS sol
  obtain ⟨B, om', hb, hC, hO, hN, hdt, hq, hg, -, hwp⟩ := hB
  rw [e] at hb
  have k := Except.ok.inj (Prod.ext_iff.1 hb).1
  have hind : B.D.ind = 0 := by rw [← k]; simp [builtOf, Script.dataDomain, Script.fitted]
  have hpr : B.D.gPrimal = 1e-3 := by rw [← k]; rfl
  have hdu : B.D.gDual = 1 := by rw [← k]; rfl
  have hju : B.D.gJump = 1 := by rw [← k]; rfl
  have hqs : B.D.qstar = 1 := by rw [← k]; rfl
  have hlam : B.D.lam = 5 := by rw [← k]; simp [builtOf, Script.args, Script.ospace, Script.order]
  have hpos : (cfgS B).D.Positive := by
    change B.D.Positive
    constructor <;> simp only [hdt, hpr, hdu, hju, hqs, hlam, hg] <;> norm_num
  have hS : (cfgS B).S.Psd (cfgS B).D.ind := by
    change modeSpace.Psd B.D.ind; rw [hind]; exact modeSpace_psd0
  have hdet : (cfgS B).Determined 1e3 := by
    intro u hu
    change modeSpace.mass u u ≤ 1e3 * (B.D.gData * modeSpace.omega B.D.ind u u
      + B.D.gPrimal * (B.D.lam * modeSpace.pen u u + 0))
    have := fe3_determined hu
    have p := modeSpace_psd.pen u
    rw [hind, hpr, hlam, map_zero]
    simp only [LinearMap.zero_apply, mul_zero, zero_add]
    linarith
  refine ⟨B, om', by rw [e]; exact hb, hC, hO, hwp, fun heap => ?_⟩
  obtain ⟨w₁, h⟩ := getMatrix_ok (cfgS B) false heap
  refine ⟨_, w₁, h, rfl, (C68_observable_unique_solution hC hS modeSpace_definite hpos fe3_indep
    (C68_full_data_observe hC hS modeSpace_definite hpos (by norm_num) hdet (by change 0 < B.D.N; rw [hN]; norm_num))
    ?_ (freshWorld_fresh heap) [.setupFE] (by simp [Op.OtherFlag]) h).2⟩
  change 1e3 * (((B.D.q : ℝ) + 1) ^ 2 / B.D.dt) * ((1e-20) ^ 2 * ((B.D.qstar : ℝ) + 1) ^ 2) < B.D.gDual * B.D.dt
  rw [hq, hdt, hqs, hdu]
  norm_num

/-- Hence the script's system has a solution, and C66 on its energy applies to it. -/
example (sol : ℝ → V3) : ∃ B w₁ x, scriptSetup (cfgS B) (freshWorld fun _ => 0) = (.ok .rhs, w₁) ∧
    Spec.energy modeSpace B.D B.D.ind ((cfgS B).full.field fe3 x)
      = -(1e-20 * modeSpace.mass (modeSpace.one - (cfgS B).full.field fe3 x 0 0) ((cfgS B).full.field fe3 x 2 0)) := by
  obtain ⟨B, om', hb, hC, hO, -, hsol⟩ := scriptS_solvable sol
  obtain ⟨A, -, -, rfl, hA⟩ := hsol fun _ => 0
  obtain ⟨w₁, h, -⟩ := scriptSetup_run (C := cfgS B) (freshWorld_fresh fun _ => 0) (freshWorld_noFail _)
  obtain ⟨x, hx, -⟩ := hA (w₁.heap .rhs)
  exact ⟨B, w₁, x, h, C66_solution_energy hb hC hO (freshWorld_fresh _) h x hx⟩

/-! A richer space, with the sine mode, which vanishes at the boundary: here the data are needed. -/

noncomputable def feSin : FE V3 where
  mP := 3
  bP s := if s = 0 then (1, -1, 0) else if s = 1 then (0, 1, 0) else (0, 0, 1)
  mD := 1
  bD _ := (1, 0, 0)

theorem feSin_indep : feSin.Indep := by
  intro c a h s hs
  fin_cases c
  · simp [FE.m, FE.basis, feSin, sum_range_succ] at h hs
    obtain ⟨h0, h1, h2⟩ := h
    interval_cases s
    · exact h0
    · linarith
    · exact h2
  · simp [FE.m, FE.basis, feSin, sum_range_succ] at h hs
    obtain ⟨h0, h1, h2⟩ := h
    interval_cases s
    · exact h0
    · linarith
    · exact h2
  · simp [FE.m, FE.basis, feSin] at h hs
    rw [hs]; exact h
  · simp [FE.m, FE.basis, feSin] at h hs
    rw [hs]; exact h

noncomputable def cfgSin (D : Disc V3) : Cfg V3 where
  S := modeSpace
  D := D
  fe := feSin
  full := stdSpace (fullSizes 1 1 2) feSin.m
  slab := stdSpace (slabSizes 1 1) feSin.m
  coup := stdSpace couplingSizes feSin.m
  bnd := stdSpace bndSizes feSin.m
  pts := []
  ws := []
  T := 1
  dsol := fun _ => 0
  ptsHo := []
  wsHo := []
  samples := []

/-- Two slabs, data on the whole domain, no initial values. -/
noncomputable def discSin : Disc V3 where
  q := 1
  qstar := 1
  N := 2
  dt := 1 / 2
  lam := 5
  eps := 0
  E := elmatOf 1 1
  gData := 1e4
  gDual := 1
  gPrimal := 1e-3
  gJump := 1
  jumpsFw := false
  wellPosed := false
  ind := (1, 0, 0)
  sol := wave3.u1

theorem cfgSin_ok : (cfgSin discSin).Ok :=
  ⟨⟨getElmatTime_ok (by simp [cfgSin, discSin]) (by simp [cfgSin, discSin]), by norm_num [cfgSin, discSin]⟩,
    stdSpace_ok _ _, rfl, stdSpace_ok _ _, rfl, stdSpace_ok _ _, rfl, stdSpace_ok _ _, rfl⟩

theorem discSin_positive : discSin.Positive := by constructor <;> norm_num [discSin]

theorem cfgSin_determined : (cfgSin discSin).Determined 1e-4 := by
  intro u _
  change modeSpace.mass u u ≤ 1e-4 * (1e4 * modeSpace.omega (1, 0, 0) u u + 1e-3 * (5 * modeSpace.pen u u + 0))
  have p := modeSpace_psd.pen u
  have e : modeSpace.omega (1, 0, 0) u u = modeSpace.mass u u := by
    change ∫ x in (0:ℝ)..1, (ι (1, 0, 0)).1 x * (ι u).1 x * (ι u).1 x = ∫ x in (0:ℝ)..1, (ι u).1 x * (ι u).1 x
    simp [ι_apply]
  rw [e]
  linarith

example (heap : Ref → Vec) : ∃ A w₁,
    getSpacetimeMatrix (cfgSin discSin) false (runOps (cfgSin discSin) [.setupFE] (freshWorld heap)) = (.ok A, w₁) ∧
      A.size = 32 ∧ A.UniquelySolvable := by
  obtain ⟨w₁, h⟩ := getMatrix_ok (cfgSin discSin) false heap
  have := C68_observable_unique_solution cfgSin_ok modeSpace_psd modeSpace_definite discSin_positive feSin_indep
    (C68_full_data_observe cfgSin_ok modeSpace_psd modeSpace_definite discSin_positive (by norm_num) cfgSin_determined
      (by norm_num [cfgSin, discSin])) (by norm_num [cfgSin, discSin]) (freshWorld_fresh heap) [.setupFE]
    (by simp [Op.OtherFlag]) h
  exact ⟨_, w₁, h, this.1.trans rfl, this.2⟩

/-- Initial values observe as well. -/
example := C68_initial_values_observe (cfg_ok false true) polySpace_psd polySpace_definite
  (disc_positive false true) rfl (by norm_num [cfg, disc])

end Example
end Dxss
