import Verif.Lemmas.Skeleton

/-!
# The kernel of the matrix-free product
-/

namespace Dxss
open Finset Module
set_option linter.unusedSectionVars false
variable {V : Type} [AddCommGroup V] [Module ℝ V] {C : Cfg V}

theorem slab_le {S : Space V} {D : Disc V} {ind : V} (hS : S.Psd ind) (hw : D.Weights) {n : ℕ} (hn : n < D.N)
    (U : Field V) : (∫ t in (n * D.dt)..((n + 1 : ℕ) * D.dt), eDens S D ind U n t) ≤ Spec.energy S D ind U := by
  rw [energy_eq]
  refine le_trans (le_add_of_nonneg_right (eBot_nonneg U hS hw n)) ?_
  exact single_le_sum (f := fun n : ℕ =>
    (∫ t in (n * D.dt)..((n + 1 : ℕ) * D.dt), eDens S D ind U n t) + eBot S D U n)
    (fun n _ => add_nonneg (eInt_nonneg U hS hw n) (eBot_nonneg U hS hw n)) (mem_range.2 hn)

/-- The energy controls the dual coefficient at the beginning of every slab. -/
theorem dual_bottom_energy_at {S : Space V} {D : Disc V} (h : D.Ok) {ind : V} (hS : S.Psd ind) (hp : D.Positive) {n : ℕ}
    (hn : n < D.N) (U : Field V) :
    D.gDual * D.dt * S.mass (U 2 (n * (D.qstar + 1))) (U 2 (n * (D.qstar + 1))) ≤ (D.qstar + 1) ^ 2 * Spec.energy S D ind U := by
  have hw := hp.weights
  have hdt := hw.dt
  have h1 := mul_le_mul_of_nonneg_left (bottom_control h.hs hdt n S.mass hS.mass S.mass_symm (U 2)) hw.dual
  have h2 := slab_le hS hw (ind := ind) hn U
  rw [← intervalIntegral.integral_const_mul] at h1
  have hc : Continuous fun t => D.gDual * S.mass (Spec.val D.qstar D.dt n (U 2) t)
      (Spec.val D.qstar D.dt n (U 2) t) := continuous_const.mul (cont_vv h.hs h.hs _ _ _)
  have h3 : (∫ t in (n * D.dt)..((n + 1 : ℕ) * D.dt), D.gDual * S.mass (Spec.val D.qstar D.dt n (U 2) t)
      (Spec.val D.qstar D.dt n (U 2) t)) ≤ ∫ t in (n * D.dt)..((n + 1 : ℕ) * D.dt), eDens S D ind U n t := by
    refine intervalIntegral.integral_mono_on (by push_cast; nlinarith)
      (hc.intervalIntegrable _ _) ((continuous_eDens S D h ind U n).intervalIntegrable _ _) fun t _ => ?_
    unfold eDens dualAt Spec.dualStab
    have n1 := mul_nonneg hw.data (hS.omega (Spec.val D.q D.dt n (U 0) t))
    have n3 : 0 ≤ D.gPrimal * primalAt S D n U U t := mul_nonneg hw.primal (primalStab_nonneg hS hw.lam _ _ _ _)
    have a2 := hS.stiff (Spec.val D.qstar D.dt n (U 2) t)
    have a3 := hS.mass (Spec.val D.qstar D.dt n (U 3) t)
    have a4 := mul_nonneg hw.lam (hS.pen (Spec.val D.qstar D.dt n (U 2) t))
    have a5 := mul_nonneg hw.dual (add_nonneg (add_nonneg a2 a3) a4)
    linarith
  have hq : (0 : ℝ) < (D.qstar + 1) ^ 2 := by positivity
  have := mul_le_mul_of_nonneg_left (h1.trans (h3.trans h2)) hq.le
  have e : ((D.qstar : ℝ) + 1) ^ 2 * (D.gDual * (D.dt / (D.qstar + 1) ^ 2 * S.mass (U 2 (n * (D.qstar + 1)))
      (U 2 (n * (D.qstar + 1))))) = D.gDual * D.dt * S.mass (U 2 (n * (D.qstar + 1))) (U 2 (n * (D.qstar + 1))) := by
    field_simp
  rwa [e] at this

/-- Discrete observability at the beginning of every slab. -/
structure Cfg.ObservableAll (C : Cfg V) (K : ℝ) : Prop where
  control : ∀ x, ∀ n < C.D.N, C.S.mass (C.full.field C.fe x 0 (n * (C.D.q + 1))) (C.full.field C.fe x 0 (n * (C.D.q + 1)))
    ≤ K * Spec.energy C.S C.D C.D.ind (C.full.field C.fe x)
  start : ∀ x, Spec.energy C.S C.D C.D.ind (C.full.field C.fe x) = 0 →
    C.full.field C.fe x 0 0 = 0 ∧ C.full.field C.fe x 1 0 = 0

/-- Data that, with the boundary values, determine the finite element functions observe them at every time. -/
theorem determined_observes (hC : C.Ok) (hS : C.S.Psd C.D.ind) (hd : C.S.Definite) (hp : C.D.Positive) {c : ℝ}
    (hc0 : 0 ≤ c) (hc : C.Determined c) (hN : 0 < C.D.N) : C.ObservableAll (c * ((C.D.q + 1) ^ 2 / C.D.dt)) := by
  refine ⟨fun x n hn => ?_, (C68_full_data_observe hC hS hd hp hc0 hc hN).start⟩
  have hw := hp.weights
  have hdt := hp.dt
  have hq := hC.disc.hq
  set U := C.full.field C.fe x
  have low : ∀ t, C.D.gData * C.S.omega C.D.ind (Spec.val C.D.q C.D.dt n (U 0) t) (Spec.val C.D.q C.D.dt n (U 0) t)
      + C.D.gPrimal * (C.D.lam * C.S.pen (Spec.val C.D.q C.D.dt n (U 0) t) (Spec.val C.D.q C.D.dt n (U 0) t)
        + C.S.ghost (Spec.val C.D.q C.D.dt n (U 0) t) (Spec.val C.D.q C.D.dt n (U 0) t))
      ≤ eDens C.S C.D C.D.ind U n t := by
    intro t
    have n2 : 0 ≤ C.D.gDual * dualAt C.S C.D n U U t := mul_nonneg hw.dual (dualStab_nonneg hS hw.lam _ _)
    unfold eDens primalAt Spec.primalStab
    set u1 := Spec.val C.D.q C.D.dt n (U 0) t
    set u2 := Spec.val C.D.q C.D.dt n (U 1) t
    set du1 := Spec.valDt C.D.q C.D.dt n (U 0) t
    set du2 := Spec.valDt C.D.q C.D.dt n (U 1) t
    have b := mul_nonneg hw.primal (add_nonneg (hS.mass (u2 - du1)) (hS.h2 (du2 - C.S.lap u1)))
    linarith
  have h1 := bottom_control hq hdt n C.S.mass hS.mass C.S.mass_symm (U 0)
  have h2 := slab_le hS hw (ind := C.D.ind) hn U
  have hI : (∫ t in (n * C.D.dt)..((n + 1 : ℕ) * C.D.dt), C.S.mass (Spec.val C.D.q C.D.dt n (U 0) t)
      (Spec.val C.D.q C.D.dt n (U 0) t))
      ≤ c * ∫ t in (n * C.D.dt)..((n + 1 : ℕ) * C.D.dt), eDens C.S C.D C.D.ind U n t := by
    rw [← intervalIntegral.integral_const_mul]
    refine intervalIntegral.integral_mono_on (by push_cast; nlinarith) ((cont_vv hq hq _ _ _).intervalIntegrable _ _)
      ((continuous_const.mul (continuous_eDens C.S C.D hC.disc C.D.ind U n)).intervalIntegrable _ _)
      fun t _ => (hc _ (val_mem_primal _ _ _ _ _ _ _)).trans (mul_le_mul_of_nonneg_left (low t) hc0)
  have h4 := h1.trans (hI.trans (mul_le_mul_of_nonneg_left h2 hc0))
  have h5 := mul_le_mul_of_nonneg_left h4 (by positivity : 0 ≤ (C.D.q + 1 : ℝ) ^ 2 / C.D.dt)
  have e : (C.D.q + 1 : ℝ) ^ 2 / C.D.dt * (C.D.dt / (C.D.q + 1) ^ 2
        * C.S.mass (U 0 (n * (C.D.q + 1))) (U 0 (n * (C.D.q + 1))))
      = C.S.mass (U 0 (n * (C.D.q + 1))) (U 0 (n * (C.D.q + 1))) := by field_simp
  rw [e] at h5
  linarith

theorem mfPlaceholders_sum (hC : C.Ok) (U : Field V) (y : Vec) :
    ∑ d ∈ range C.full.size, mfPlaceholders C.S C.D U (C.full.field C.fe (unitVec d)) * y d
      = mfPlaceholders C.S C.D U (C.full.field C.fe y) := by
  let L : Field V →ₗ[ℝ] ℝ :=
    { toFun := fun W => mfPlaceholders C.S C.D U W
      map_add' := fun W W' => by
        simp only [mfPlaceholders, ← sum_add_distrib]
        refine sum_congr rfl fun n _ => ?_
        split
        · simp
        · simp only [Pi.add_apply, map_add]; ring
      map_smul' := fun r W => by
        simp only [mfPlaceholders, RingHom.id_apply, smul_eq_mul, mul_sum]
        refine sum_congr rfl fun n _ => ?_
        split
        · simp
        · simp only [Pi.smul_apply, map_smul, smul_eq_mul]; ring }
  change _ = L (C.full.field C.fe y)
  rw [field_eq_sum C.full C.fe hC.full y, map_sum]
  exact sum_congr rfl fun e _ => by rw [map_smul, smul_eq_mul, mul_comm]; rfl

/-- The matrix-free product is injective. -/
theorem mfAll_kernel (hC : C.Ok) (hS : C.S.Psd C.D.ind) (hd : C.S.Definite) (hp : C.D.Positive) (hi : C.fe.Indep)
    (hN : 1 ≤ C.D.N) {K : ℝ} (ho : C.ObservableAll K)
    (hK : K * ((1e-20 * C.D.N) ^ 2 * (C.D.qstar + 1) ^ 2) < C.D.gDual * C.D.dt) {x : Vec}
    (hx : ∀ d < C.full.size, mfAll C x d = 0) : ∀ d < C.full.size, x d = 0 := by
  obtain ⟨x', hx'⟩ := exists_flip hC.full (fe := C.fe) x
  set U := C.full.field C.fe x with hU
  have hpair := assemble_pair C.S C.D.ind (C.D.stForm false) C.fe C.full hC.full x x'
  have hsum : ∑ d ∈ range C.full.size, (assemble C.S C.D.ind C.fe C.full (C.D.stForm false)).mult x d * x' d
      + mfPlaceholders C.S C.D U (C.full.field C.fe x') = 0 := by
    rw [← mfPlaceholders_sum hC, ← sum_add_distrib]
    refine sum_eq_zero fun d hd => ?_
    rw [← add_mul]
    have := hx d (mem_range.1 hd)
    rw [mfAll] at this
    rw [show (assemble C.S C.D.ind C.fe C.full (C.D.stForm false)).mult x d = (stMatOf C false).mult x d from rfl, this,
      zero_mul]
  rw [hpair, hx', C14_stability_identity C.S C.D hC.disc] at hsum
  set E := Spec.energy C.S C.D C.D.ind U with hE
  have hE0 : 0 ≤ E := C14_energy_nonneg C.S C.D C.D.ind hS hp.weights U
  have hle : E ≤ ∑ n ∈ range C.D.N, 1e-20 * C.S.mass (U 0 (n * (C.D.q + 1))) (U 2 (n * (C.D.qstar + 1))) := by
    obtain ⟨N', hN'⟩ : ∃ N', C.D.N = N' + 1 := ⟨C.D.N - 1, by omega⟩
    have e2 : mfPlaceholders C.S C.D U (Spec.flipDual U) = -∑ n ∈ range C.D.N, (if n = 0 then 0 else
        1e-20 * C.S.mass (U 0 (n * (C.D.q + 1))) (U 2 (n * (C.D.qstar + 1))))
        + ∑ n ∈ range C.D.N, (if n = 0 then 0 else
          1e-20 * C.S.mass (U 0 (n * (C.D.q + 1) - 1)) (U 0 (n * (C.D.q + 1) - 1))) := by
      rw [mfPlaceholders, ← sum_neg_distrib, ← sum_add_distrib]
      refine sum_congr rfl fun n _ => ?_
      split
      · simp
      · simp [Spec.flipDual]; ring
    have e3 : 0 ≤ ∑ n ∈ range C.D.N, (if n = 0 then 0 else
          1e-20 * C.S.mass (U 0 (n * (C.D.q + 1) - 1)) (U 0 (n * (C.D.q + 1) - 1))) := by
      refine sum_nonneg fun n _ => ?_
      split
      · exact le_rfl
      · exact mul_nonneg (by norm_num) (hS.mass _)
    rw [e2] at hsum
    simp only [hN', sum_range_succ' _ N', if_true, Nat.succ_ne_zero, if_false] at hsum e3 ⊢
    simp only [Nat.cast_zero, zero_mul, add_zero] at hsum e3 ⊢
    linarith
  have hz : E = 0 := by
    by_contra hne
    have hEp : 0 < E := lt_of_le_of_ne hE0 (Ne.symm hne)
    have hg : 0 < C.D.gDual * C.D.dt := mul_pos hp.dual hp.dt
    have hNp : (0 : ℝ) < C.D.N := by exact_mod_cast hN
    have term : ∀ n ∈ range C.D.N, 1e-20 * C.S.mass (U 0 (n * (C.D.q + 1))) (U 2 (n * (C.D.qstar + 1))) < E / C.D.N := by
      intro n hn
      have hn := mem_range.1 hn
      have hc := ho.control x n hn
      have hB := dual_bottom_energy_at hC.disc hS hp (ind := C.D.ind) hn U
      have hcs := mass_cauchy hS (U 0 (n * (C.D.q + 1))) (U 2 (n * (C.D.qstar + 1)))
      have ha := hS.mass (U 0 (n * (C.D.q + 1))); have hb := hS.mass (U 2 (n * (C.D.qstar + 1)))
      rw [← hU, ← hE] at hc
      rw [← hE] at hB
      set a := C.S.mass (U 0 (n * (C.D.q + 1))) (U 0 (n * (C.D.q + 1)))
      set b := C.S.mass (U 2 (n * (C.D.qstar + 1))) (U 2 (n * (C.D.qstar + 1)))
      set m := C.S.mass (U 0 (n * (C.D.q + 1))) (U 2 (n * (C.D.qstar + 1)))
      rw [lt_div_iff₀ hNp]
      refine lt_of_pow_lt_pow_left₀ 2 hEp.le ?_
      have t1 : C.D.gDual * C.D.dt * m ^ 2 ≤ a * (C.D.gDual * C.D.dt * b) := by
        have := mul_le_mul_of_nonneg_left hcs hg.le
        linarith
      have t2 : a * (C.D.gDual * C.D.dt * b) ≤ K * E * ((C.D.qstar + 1) ^ 2 * E) :=
        mul_le_mul hc hB (by positivity) (ha.trans hc)
      have t3 := mul_le_mul_of_nonneg_left (t1.trans t2) (by positivity : (0:ℝ) ≤ (1e-20 * C.D.N) ^ 2)
      have t4 := mul_lt_mul_of_pos_right hK (by positivity : 0 < E ^ 2)
      have t5 : C.D.gDual * C.D.dt * (1e-20 * m * C.D.N) ^ 2 < C.D.gDual * C.D.dt * E ^ 2 := by nlinarith
      exact lt_of_mul_lt_mul_left t5 hg.le
    have := sum_lt_sum_of_nonempty (nonempty_range_iff.2 (by omega)) term
    rw [sum_const, card_range, nsmul_eq_mul, mul_div_cancel₀ _ hNp.ne'] at this
    linarith
  refine full_vec_zero hi hC.full hC.fullN fun n hn => ?_
  exact energy_zero_of_start hC.disc hS hd hp _ (ho.start x hz) hz n hn

end Dxss
