import Verif.Lemmas.Variational
import Verif.Example.PolySpace

/-!
# Properties C06, C11–C14: the assembled forms
-/

namespace Dxss
open Finset
variable {V : Type} [AddCommGroup V] [Module ℝ V]

/-! ## C06 (form level) -/

/-- The guarded loop nests equal the unguarded sums, for the space-time form and the slab form. -/
theorem C06_guard_harmless (S : Space V) (D : Disc V) (hE : getElmatTime D.q D.qstar = .ok D.E)
    (ind : V) (c : Counters) (U W : Field V) :
    (evalForm S ind (D.stWave c) U W = ∑ j ∈ range (D.q + 1), ∑ k ∈ range (D.qstar + 1),
      (D.E.DM_q_qs k j * S.mass (U 1 (c.intQ + j)) (W 2 (c.intQs + k))
        + D.dt * D.E.M_q_qs k j * S.stiff (U 0 (c.intQ + j)) (W 2 (c.intQs + k))
        + D.E.DM_q_qs k j * S.mass (U 0 (c.intQ + j)) (W 3 (c.intQs + k))
        - D.dt * D.E.M_q_qs k j * S.mass (U 1 (c.intQ + j)) (W 3 (c.intQs + k))
        - D.dt * D.E.M_q_qs k j * S.nit (U 0 (c.intQ + j)) (W 2 (c.intQs + k)))) ∧
    (evalForm S ind (D.stAdj c) U W = ∑ j ∈ range (D.q + 1), ∑ k ∈ range (D.qstar + 1),
      (D.E.DM_q_qs k j * S.mass (W 1 (c.intQ + j)) (U 2 (c.intQs + k))
        + D.dt * D.E.M_q_qs k j * S.stiff (W 0 (c.intQ + j)) (U 2 (c.intQs + k))
        + D.E.DM_q_qs k j * S.mass (W 0 (c.intQ + j)) (U 3 (c.intQs + k))
        - D.dt * D.E.M_q_qs k j * S.mass (W 1 (c.intQ + j)) (U 3 (c.intQs + k))
        - D.dt * D.E.M_q_qs k j * S.nit (W 0 (c.intQ + j)) (U 2 (c.intQs + k)))) ∧
    (evalForm S ind D.slabWave U W = ∑ j ∈ range (D.q + 1), ∑ k ∈ range (D.qstar + 1),
      (D.E.DM_q_qs k j * S.mass (U 1 j) (W 2 k) + D.dt * D.E.M_q_qs k j * S.stiff (U 0 j) (W 2 k)
        + D.E.DM_q_qs k j * S.mass (U 0 j) (W 3 k) - D.dt * D.E.M_q_qs k j * S.mass (U 1 j) (W 3 k)
        - D.dt * D.E.M_q_qs k j * S.nit (U 0 j) (W 2 k))) ∧
    (evalForm S ind D.slabAdj U W = ∑ j ∈ range (D.q + 1), ∑ k ∈ range (D.qstar + 1),
      (D.E.DM_q_qs k j * S.mass (W 1 j) (U 2 k) + D.dt * D.E.M_q_qs k j * S.stiff (W 0 j) (U 2 k)
        + D.E.DM_q_qs k j * S.mass (W 0 j) (U 3 k) - D.dt * D.E.M_q_qs k j * S.mass (W 1 j) (U 3 k)
        - D.dt * D.E.M_q_qs k j * S.nit (W 0 j) (U 2 k))) := by
  refine ⟨?_, ?_, ?_, ?_⟩
  · rw [Disc.stWave, evalForm_loop2]
    refine sum_congr rfl fun j _ => sum_congr rfl fun k _ => ?_
    rw [evalForm_append, evalForm_guard S ind U W hE]
    simp only [evalForm_cons, evalForm_nil, Term.eval, eval_at, SOp.eval]
    ring
  · rw [Disc.stAdj, evalForm_loop2]
    refine sum_congr rfl fun j _ => sum_congr rfl fun k _ => ?_
    rw [evalForm_append, evalForm_guard S ind U W hE]
    simp only [evalForm_cons, evalForm_nil, Term.eval, eval_at, SOp.eval,
      S.mass_symm (U _ _) (W _ _), S.stiff_symm (U _ _) (W _ _)]
    ring
  · rw [Disc.slabWave, evalForm_loop2]
    refine sum_congr rfl fun j _ => sum_congr rfl fun k _ => ?_
    rw [evalForm_append, evalForm_guard S ind U W hE]
    simp only [evalForm_cons, evalForm_nil, Term.eval, eval_at, SOp.eval]
    ring
  · rw [Disc.slabAdj, evalForm_loop2]
    refine sum_congr rfl fun j _ => sum_congr rfl fun k _ => ?_
    rw [evalForm_append, evalForm_guard S ind U W hE]
    simp only [evalForm_cons, evalForm_nil, Term.eval, eval_at, SOp.eval,
      S.mass_symm (U _ _) (W _ _), S.stiff_symm (U _ _) (W _ _)]
    ring


/-! ## C12 -/

/-- Value of the `1e-20 * u1[0] * y1[0] * dx` placeholder. -/
noncomputable def placeholder (S : Space V) (U W : Field V) : ℝ := 1e-20 * S.mass (U 0 0) (W 2 0)

theorem integrand_eq (S : Space V) (D : Disc V) (ind : V) (U W : Field V) (n : ℕ) :
    Spec.integrand S D ind U W n = fun t => waveAt S D n U W t + waveAt S D n W U t
      + D.gData * S.omega ind (Spec.val D.q D.dt n (U 0) t) (Spec.val D.q D.dt n (W 0) t)
      - D.gDual * dualAt S D n U W t + D.gPrimal * primalAt S D n U W t := rfl

/-- C12: the assembled form is the space-time variational form plus the placeholder. -/
theorem C12_form_is_variational (S : Space V) (D : Disc V) (h : D.Ok) (ind : V) (precond : Bool)
    (U W : Field V) :
    evalForm S ind (D.stForm precond) U W
      = Spec.form S D ind precond U W + placeholder S U W := by
  have hq := h.hq
  rw [Disc.stForm, evalForm_cons, evalForm_slabLoop, add_comm]
  congr 1
  · refine sum_congr rfl fun n _ => ?_
    rw [integrand_eq]
    rw [int_add ((((continuous_waveAt S h U W n).fun_add (continuous_waveAt S h W U n)).fun_add
        (continuous_const.fun_mul (cont_vv hq hq _ _ _))).fun_sub
        (continuous_const.fun_mul (continuous_dualAt S h U W n)))
        (continuous_const.fun_mul (continuous_primalAt S h U W n)),
      int_sub (((continuous_waveAt S h U W n).fun_add (continuous_waveAt S h W U n)).fun_add
        (continuous_const.fun_mul (cont_vv hq hq _ _ _)))
        (continuous_const.fun_mul (continuous_dualAt S h U W n)),
      int_add ((continuous_waveAt S h U W n).fun_add (continuous_waveAt S h W U n))
        (continuous_const.fun_mul (cont_vv hq hq _ _ _)),
      int_add (continuous_waveAt S h U W n) (continuous_waveAt S h W U n),
      intervalIntegral.integral_const_mul (D.gDual), intervalIntegral.integral_const_mul (D.gPrimal),
      ← evalForm_stWave S h ind, ← evalForm_stAdj S h ind, ← evalForm_stData S h ind]
    have e1 := evalForm_stDual S h ind U W n
    have e2 := evalForm_stPrimal S h ind U W n
    have e3 := evalForm_stInitial S h ind U W n
    have e4 := evalForm_interface S h ind U W n precond
    simp only [Disc.stBody, evalForm_append]
    by_cases hn : n = 0
    · simp only [hn, if_true] at e3 e4 ⊢
      subst hn
      linarith
    · simp only [hn, if_false] at e3 e4 ⊢
      linarith
  · simp [Term.eval, placeholder, SOp.eval]

/-! ## C13 -/

theorem spec_form_symm (S : Space V) (D : Disc V) (ind : V) (U W : Field V) :
    Spec.form S D ind false U W = Spec.form S D ind false W U := by
  refine sum_congr rfl fun n _ => ?_
  congr 1
  · congr 1
    funext t
    simp only [Spec.integrand, Spec.dualStab, Spec.primalStab, S.omega_symm ind (Spec.val _ _ _ (U 0) _),
      S.mass_symm (Spec.val _ _ _ (U _) _) (Spec.val _ _ _ (W _) _),
      S.stiff_symm (Spec.val _ _ _ (U _) _), S.pen_symm (Spec.val _ _ _ (U _) _),
      S.ghost_symm (Spec.val _ _ _ (U _) _),
      S.mass_symm (Spec.val _ _ _ (U _) _ - Spec.valDt _ _ _ (U _) _),
      S.h2_symm (Spec.valDt _ _ _ (U _) _ - S.lap (Spec.val _ _ _ (U _) _))]
    ring
  · split
    · simp only [Spec.initial, Spec.jumpForm, S.mass_symm (Spec.val _ _ _ (U _) _),
        S.stiff_symm (Spec.val _ _ _ (U _) _)]
    · simp only [Spec.interface, Bool.false_eq_true, if_false, Spec.jumpForm, S.mass_symm (Spec.jump _ _ _ (U _)) (Spec.jump _ _ _ (W _)),
        S.stiff_symm (Spec.jump _ _ _ (U _)), S.mass_symm (Spec.val _ _ _ (U _) _) (Spec.val _ _ _ (W _) _)]
      split <;> ring

/-- C13: with `precond=False` the form minus the placeholder is symmetric. -/
theorem C13_symmetric (S : Space V) (D : Disc V) (h : D.Ok) (ind : V) (U W : Field V) :
    evalForm S ind (D.stForm false) U W - placeholder S U W
      = evalForm S ind (D.stForm false) W U - placeholder S W U := by
  rw [C12_form_is_variational S D h, C12_form_is_variational S D h, spec_form_symm]
  ring

/-- C13: the exact asymmetry of the `precond=True` form: per interface, the coupling of the lower
trace of one argument with the upper trace of the other, which is present in one order only. -/
theorem C13_precond_asymmetry (S : Space V) (D : Disc V) (h : D.Ok) (ind : V) (U W : Field V) :
    evalForm S ind (D.stForm true) U W - evalForm S ind (D.stForm true) W U
      = placeholder S U W - placeholder S W U
        + ∑ n ∈ range D.N, if n = 0 then 0 else D.gJump *
          (Spec.jumpForm S D.dt (W 0 (n * (D.q + 1) - 1)) (W 1 (n * (D.q + 1) - 1))
              (U 0 (n * (D.q + 1))) (U 1 (n * (D.q + 1)))
            - Spec.jumpForm S D.dt (U 0 (n * (D.q + 1) - 1)) (U 1 (n * (D.q + 1) - 1))
              (W 0 (n * (D.q + 1))) (W 1 (n * (D.q + 1)))) := by
  have key : Spec.form S D ind true U W - Spec.form S D ind true W U
      - (Spec.form S D ind false U W - Spec.form S D ind false W U)
      = ∑ n ∈ range D.N, if n = 0 then 0 else D.gJump *
          (Spec.jumpForm S D.dt (W 0 (n * (D.q + 1) - 1)) (W 1 (n * (D.q + 1) - 1))
              (U 0 (n * (D.q + 1))) (U 1 (n * (D.q + 1)))
            - Spec.jumpForm S D.dt (U 0 (n * (D.q + 1) - 1)) (U 1 (n * (D.q + 1) - 1))
              (W 0 (n * (D.q + 1))) (W 1 (n * (D.q + 1)))) := by
    simp only [Spec.form, ← sum_sub_distrib]
    refine sum_congr rfl fun n _ => ?_
    by_cases hn : n = 0
    · simp [hn]
    · have hp := Nat.pos_of_ne_zero hn
      simp only [hn, if_false, Spec.interface, if_true, Bool.false_eq_true, jump_eq h _ hp,
        val_bottom h.hq, Spec.jumpForm, map_sub, LinearMap.sub_apply]
      simp only [S.mass_symm (W _ _) (U _ _), S.stiff_symm (W _ _) (U _ _)]
      ring
  rw [C12_form_is_variational S D h, C12_form_is_variational S D h, ← key,
    spec_form_symm S D ind U W]
  ring

/-- The field that is `v` in displacement component `i` and zero elsewhere. -/
def bump (i : ℤ) (v : V) : Field V := fun c j => if c = 0 ∧ j = i then v else 0

/-- C13 (negative part): whenever there are at least two slabs and a positive jump weight, the
`precond=True` form is not symmetric: it couples the top of slab 0 to the bottom of slab 1 but not
conversely. -/
theorem C13_precond_not_symmetric (S : Space V) (D : Disc V) (h : D.Ok) (ind v : V) (hN : 2 ≤ D.N) :
    evalForm S ind (D.stForm true) (bump D.q v) (bump (D.q + 1) v)
      - evalForm S ind (D.stForm true) (bump (D.q + 1) v) (bump D.q v)
      = -(D.gJump * (1 / D.dt * S.mass v v + D.dt * S.stiff v v)) := by
  rw [C13_precond_asymmetry S D h, sum_eq_single 1]
  · simp [placeholder, bump, Spec.jumpForm]; ring
  · intro n _ hn
    split
    · rfl
    · rename_i h0
      have e1 : ((n : ℤ) * (D.q + 1) - 1 = D.q) ↔ n = 1 := by
        rw [sub_eq_iff_eq_add]
        constructor
        · intro e
          have : (D.q + 1 : ℤ) ≠ 0 := by positivity
          have := mul_right_cancel₀ this (e.trans (one_mul _).symm)
          exact_mod_cast this
        · rintro rfl; simp
      have e2 : ¬ ((n : ℤ) * (D.q + 1) = D.q) := by
        intro e
        have : (1 : ℤ) ≤ n := by omega
        nlinarith
      simp [bump, Spec.jumpForm, e1, e2, hn]
  · intro h1; exact absurd (mem_range.2 (by omega)) h1

/-! ## C14 -/

theorem val_neg (q : ℕ) (dt : ℝ) (n : ℕ) (F : ℤ → V) (t : ℝ) :
    Spec.val q dt n (fun i => -F i) t = -Spec.val q dt n F t := by
  simp [Spec.val]

omit [Module ℝ V] in
theorem flipDual_0 (U : Field V) : Spec.flipDual U 0 = U 0 := by funext i; simp [Spec.flipDual]
omit [Module ℝ V] in
theorem flipDual_1 (U : Field V) : Spec.flipDual U 1 = U 1 := by funext i; simp [Spec.flipDual]
omit [Module ℝ V] in
theorem flipDual_2 (U : Field V) : Spec.flipDual U 2 = fun i => -U 2 i := by funext i; simp [Spec.flipDual]
omit [Module ℝ V] in
theorem flipDual_3 (U : Field V) : Spec.flipDual U 3 = fun i => -U 3 i := by funext i; simp [Spec.flipDual]

/-- C14: testing with `(u, -z)` gives exactly the energy plus the placeholder. -/
theorem C14_stability_identity (S : Space V) (D : Disc V) (h : D.Ok) (ind : V) (U : Field V) :
    evalForm S ind (D.stForm false) U (Spec.flipDual U)
      = Spec.energy S D ind U - 1e-20 * S.mass (U 0 0) (U 2 0) := by
  rw [C12_form_is_variational S D h, sub_eq_add_neg]
  congr 1
  · refine sum_congr rfl fun n _ => ?_
    congr 1
    · congr 1
      funext t
      simp only [Spec.integrand, flipDual_0, flipDual_1, flipDual_2, flipDual_3,
        val_neg, Spec.wave, Spec.dualStab, map_neg, map_sub]
      ring
    · split
      · simp only [Spec.initial, flipDual_0, flipDual_1]
      · simp only [Spec.interface, flipDual_0, flipDual_1, flipDual_2, flipDual_3, val_neg, map_neg,
          Bool.false_eq_true, if_false]
        split <;> ring
  · simp [placeholder, Spec.flipDual]

/-- Semidefiniteness of the spatial integrands (true for every mesh; `ind ≥ 0`). -/
structure Space.Psd (S : Space V) (ind : V) : Prop where
  mass : ∀ v, 0 ≤ S.mass v v
  stiff : ∀ v, 0 ≤ S.stiff v v
  pen : ∀ v, 0 ≤ S.pen v v
  ghost : ∀ v, 0 ≤ S.ghost v v
  h2 : ∀ v, 0 ≤ S.h2 v v
  omega : ∀ v, 0 ≤ S.omega ind v v

/-- Non-negative weights and positive step length. -/
structure Disc.Weights (D : Disc V) : Prop where
  dt : 0 < D.dt
  lam : 0 ≤ D.lam
  data : 0 ≤ D.gData
  dual : 0 ≤ D.gDual
  primal : 0 ≤ D.gPrimal
  jump : 0 ≤ D.gJump

theorem jumpForm_nonneg {S : Space V} {ind : V} (hS : S.Psd ind) {dt : ℝ} (hdt : 0 < dt) (a b : V) :
    0 ≤ Spec.jumpForm S dt a b a b := by
  have := hS.mass a; have := hS.mass b; have := hS.stiff a
  unfold Spec.jumpForm; positivity

theorem dualStab_nonneg {S : Space V} {ind : V} (hS : S.Psd ind) {lam : ℝ} (hl : 0 ≤ lam) (a b : V) :
    0 ≤ Spec.dualStab S lam a b a b := by
  have := hS.mass a; have := hS.mass b; have := hS.stiff a; have := hS.pen a
  unfold Spec.dualStab; positivity

theorem primalStab_nonneg {S : Space V} {ind : V} (hS : S.Psd ind) {lam : ℝ} (hl : 0 ≤ lam)
    (a b c d : V) : 0 ≤ Spec.primalStab S lam a b c d a b c d := by
  have := hS.pen a; have := hS.ghost a; have := hS.mass (b - c); have := hS.h2 (d - S.lap a)
  unfold Spec.primalStab; positivity

/-- C14: the energy is non-negative for non-negative weights. -/
theorem C14_energy_nonneg (S : Space V) (D : Disc V) (ind : V) (hS : S.Psd ind) (hw : D.Weights)
    (U : Field V) : 0 ≤ Spec.energy S D ind U := by
  have := hw.dt; have := hw.data; have := hw.dual; have := hw.primal; have := hw.jump
  refine sum_nonneg fun n _ => add_nonneg ?_ ?_
  · refine intervalIntegral.integral_nonneg (by push_cast; nlinarith) fun t _ => ?_
    exact add_nonneg (add_nonneg (mul_nonneg hw.data (hS.omega _))
      (mul_nonneg hw.dual (dualStab_nonneg hS hw.lam _ _)))
      (mul_nonneg hw.primal (primalStab_nonneg hS hw.lam _ _ _ _))
  · split
    · split
      · exact mul_nonneg hw.jump (jumpForm_nonneg hS hw.dt _ _)
      · exact le_rfl
    · refine add_nonneg (mul_nonneg hw.jump (jumpForm_nonneg hS hw.dt _ _)) ?_
      split
      · have := hS.mass (Spec.val D.qstar D.dt n (U 2) (n * D.dt))
        have := hS.mass (Spec.val D.qstar D.dt n (U 3) (n * D.dt))
        positivity
      · exact le_rfl


/-! ## Non-vacuity

Two slabs of length 1/2 over the unit interval, linear elements in time, every weight positive. -/

namespace Example
open Polynomial

noncomputable def disc (fw wp : Bool) : Disc ℝ[X] where
  q := 1
  qstar := 1
  N := 2
  dt := 1 / 2
  lam := 5
  eps := 0
  E := elmatOf 1 1
  gData := 1
  gDual := 1
  gPrimal := 1
  gJump := 1
  jumpsFw := fw
  wellPosed := wp
  ind := 1
  sol := fun t => C t

theorem disc_ok (fw wp : Bool) : (disc fw wp).Ok :=
  ⟨getElmatTime_ok (q := 1) (qstar := 1) (by decide) (by decide), by norm_num [disc]⟩

theorem disc_weights (fw wp : Bool) : (disc fw wp).Weights := by
  constructor <;> norm_num [disc]

theorem polySpace_psd : polySpace.Psd 1 where
  mass := I_sq_nonneg
  stiff v := I_sq_nonneg _
  pen v := by
    have := mul_self_nonneg (v.eval 0); have := mul_self_nonneg (v.eval 1)
    simp only [polySpace, LinearMap.add_apply, LinearMap.compl₁₂_apply, LinearMap.mul_apply', leval_apply]
    positivity
  ghost v := le_rfl
  h2 := I_sq_nonneg
  omega v := by
    simp only [polySpace, LinearMap.compr₂_apply, LinearMap.mul_apply', one_mul]
    exact I_sq_nonneg v

/-- C06 guard, form level: the hypothesis holds for the example. -/
example := C06_guard_harmless polySpace (disc true true) (disc_ok _ _).elmat 1
example := C12_form_is_variational polySpace (disc true true) (disc_ok _ _) 1 false
example := C13_symmetric polySpace (disc true true) (disc_ok _ _) 1

/-- The example form with `precond=True` really is asymmetric. -/
example : evalForm polySpace 1 ((disc false false).stForm true) (bump 1 1) (bump 2 1)
    ≠ evalForm polySpace 1 ((disc false false).stForm true) (bump 2 1) (bump 1 1) := by
  intro e
  have h : _ = -((1:ℝ) * (1 / (1 / 2) * polySpace.mass 1 1 + 1 / 2 * polySpace.stiff 1 1)) :=
    C13_precond_not_symmetric polySpace (disc false false) (disc_ok _ _) 1 1 (le_refl 2)
  have hm : 0 < polySpace.mass 1 1 := polySpace_mass_pos one_ne_zero
  have hs := polySpace_psd.stiff 1
  have e' := sub_eq_zero.2 e
  have h' := h.symm.trans e'
  linarith

/-- The energy of a non-zero field is not identically zero: the constant displacement 1. -/
example : 0 ≤ Spec.energy polySpace (disc true true) 1 (fun c _ => if c = 0 then 1 else 0) :=
  C14_energy_nonneg _ _ _ polySpace_psd (disc_weights _ _) _

end Example

end Dxss
