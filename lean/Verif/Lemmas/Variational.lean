import Verif.Lemmas.TimeInt
import Verif.Props.TimeBasis
import Mathlib.Tactic.Abel

/-! # The loop nests of the form builders as time integrals -/

namespace Dxss
open Finset
variable {V : Type} [AddCommGroup V] [Module ℝ V]

/-- What the constructor guarantees about the attributes the forms read. -/
structure Disc.Ok (D : Disc V) : Prop where
  elmat : getElmatTime D.q D.qstar = .ok D.E
  dt_ne : D.dt ≠ 0

namespace Disc.Ok
omit [AddCommGroup V] [Module ℝ V]
variable {D : Disc V} (h : D.Ok)
include h
theorem orders : D.q ≤ 3 ∧ D.qstar ≤ 3 := by
  by_contra hcon; have := h.elmat; rw [getElmatTime_error hcon] at this; cases this
theorem hq : D.q ≤ 3 := h.orders.1
theorem hs : D.qstar ≤ 3 := h.orders.2
theorem E_eq : D.E = elmatOf D.q D.qstar := by
  have := h.elmat; rw [getElmatTime_ok h.hq h.hs] at this; simpa using this.symm
end Disc.Ok

theorem evalForm_guard (S : Space V) (ind : V) (U W : Field V) {q qstar : ℕ} {E : Elmat}
    (hE : getElmatTime q qstar = .ok E) (dt : ℝ) (k j : ℕ) (op : SOp) (o o' : Operand) :
    evalForm S ind (if guard10 (E.M_q_qs k j) then [⟨-(dt * E.M_q_qs k j), op, o, o'⟩] else []) U W
      = -(dt * E.M_q_qs k j) * op.eval S ind (o.eval U) (o'.eval W) := by
  rcases C06_guard_entries hE k j with h0 | h1
  · have : guard10 (E.M_q_qs k j) = false := by rw [h0]; decide +kernel
    rw [this, h0]; simp
  · have : guard10 (E.M_q_qs k j) = true := by simpa [guard10] using h1
    simp [this, Term.eval]

section continuity
variable {q q' : ℕ} {dt : ℝ} {n : ℕ} (hq : q ≤ 3) (hq' : q' ≤ 3) (B : V →ₗ[ℝ] V →ₗ[ℝ] ℝ) (F G : ℤ → V)
include hq hq'
theorem cont_vv : Continuous fun t => B (Spec.val q dt n F t) (Spec.val q' dt n G t) :=
  continuous_bilin_comb B _ _ _ _ _ _ (continuous_phiT hq) (continuous_phiT hq')
theorem cont_dv : Continuous fun t => B (Spec.valDt q dt n F t) (Spec.val q' dt n G t) := by
  rw [valDt_eq hq]
  exact continuous_bilin_comb B _ _ _ _ _ _ (continuous_dphiT hq) (continuous_phiT hq')
theorem cont_vd : Continuous fun t => B (Spec.val q dt n F t) (Spec.valDt q' dt n G t) := by
  rw [valDt_eq hq']
  exact continuous_bilin_comb B _ _ _ _ _ _ (continuous_phiT hq) (continuous_dphiT hq')
theorem cont_dd : Continuous fun t => B (Spec.valDt q dt n F t) (Spec.valDt q' dt n G t) := by
  rw [valDt_eq hq, valDt_eq hq']
  exact continuous_bilin_comb B _ _ _ _ _ _ (continuous_dphiT hq) (continuous_dphiT hq')
end continuity

theorem int_add {f g : ℝ → ℝ} (hf : Continuous f) (hg : Continuous g) (a b : ℝ) :
    ∫ t in a..b, (f t + g t) = (∫ t in a..b, f t) + ∫ t in a..b, g t :=
  intervalIntegral.integral_add (hf.intervalIntegrable _ _) (hg.intervalIntegrable _ _)
theorem int_sub {f g : ℝ → ℝ} (hf : Continuous f) (hg : Continuous g) (a b : ℝ) :
    ∫ t in a..b, (f t - g t) = (∫ t in a..b, f t) - ∫ t in a..b, g t :=
  intervalIntegral.integral_sub (hf.intervalIntegrable _ _) (hg.intervalIntegrable _ _)

/-- closes continuity goals about integrands -/
macro "cts" : tactic => `(tactic| (
  repeat' (first
    | with_reducible exact cont_vv (by assumption) (by assumption) _ _ _
    | with_reducible exact cont_dv (by assumption) (by assumption) _ _ _
    | with_reducible exact cont_vd (by assumption) (by assumption) _ _ _
    | with_reducible exact cont_dd (by assumption) (by assumption) _ _ _
    | exact continuous_const
    | with_reducible refine Continuous.fun_sub ?_ ?_
    | with_reducible refine Continuous.fun_add ?_ ?_
    | with_reducible refine Continuous.fun_mul ?_ ?_)))

section nests
variable (S : Space V) {D : Disc V} (h : D.Ok) (ind : V) (U W : Field V) (n : ℕ)
include h

/-- pointwise wave operator along a discrete function -/
noncomputable def waveAt (S : Space V) (D : Disc V) (n : ℕ) (U W : Field V) (t : ℝ) : ℝ :=
  Spec.wave S (Spec.val D.q D.dt n (U 0) t) (Spec.val D.q D.dt n (U 1) t)
    (Spec.valDt D.q D.dt n (U 0) t) (Spec.valDt D.q D.dt n (U 1) t)
    (Spec.val D.qstar D.dt n (W 2) t) (Spec.val D.qstar D.dt n (W 3) t)

noncomputable def dualAt (S : Space V) (D : Disc V) (n : ℕ) (U W : Field V) (t : ℝ) : ℝ :=
  Spec.dualStab S D.lam (Spec.val D.qstar D.dt n (U 2) t) (Spec.val D.qstar D.dt n (U 3) t)
    (Spec.val D.qstar D.dt n (W 2) t) (Spec.val D.qstar D.dt n (W 3) t)

noncomputable def primalAt (S : Space V) (D : Disc V) (n : ℕ) (U W : Field V) (t : ℝ) : ℝ :=
  Spec.primalStab S D.lam (Spec.val D.q D.dt n (U 0) t) (Spec.val D.q D.dt n (U 1) t)
    (Spec.valDt D.q D.dt n (U 0) t) (Spec.valDt D.q D.dt n (U 1) t)
    (Spec.val D.q D.dt n (W 0) t) (Spec.val D.q D.dt n (W 1) t)
    (Spec.valDt D.q D.dt n (W 0) t) (Spec.valDt D.q D.dt n (W 1) t)

omit h in
theorem waveAt_eq : waveAt S D n U W = fun t =>
    S.mass (Spec.valDt D.q D.dt n (U 1) t) (Spec.val D.qstar D.dt n (W 2) t)
    + S.stiff (Spec.val D.q D.dt n (U 0) t) (Spec.val D.qstar D.dt n (W 2) t)
    - S.nit (Spec.val D.q D.dt n (U 0) t) (Spec.val D.qstar D.dt n (W 2) t)
    + (S.mass (Spec.valDt D.q D.dt n (U 0) t) (Spec.val D.qstar D.dt n (W 3) t)
    - S.mass (Spec.val D.q D.dt n (U 1) t) (Spec.val D.qstar D.dt n (W 3) t)) := by
  funext t; simp [waveAt, Spec.wave]

theorem continuous_waveAt : Continuous (waveAt S D n U W) := by
  have hq := h.hq; have hs := h.hs
  rw [waveAt_eq S]
  cts

theorem int_waveAt : ∫ t in (n * D.dt)..((n + 1 : ℕ) * D.dt), waveAt S D n U W t
    = ∑ j ∈ range (D.q + 1), ∑ k ∈ range (D.qstar + 1),
      (D.E.DM_q_qs k j * S.mass (blk D.q n (U 1) j) (blk D.qstar n (W 2) k)
      + D.dt * D.E.M_q_qs k j * S.stiff (blk D.q n (U 0) j) (blk D.qstar n (W 2) k)
      - D.dt * D.E.M_q_qs k j * S.nit (blk D.q n (U 0) j) (blk D.qstar n (W 2) k)
      + (D.E.DM_q_qs k j * S.mass (blk D.q n (U 0) j) (blk D.qstar n (W 3) k)
      - D.dt * D.E.M_q_qs k j * S.mass (blk D.q n (U 1) j) (blk D.qstar n (W 3) k))) := by
  have hq := h.hq; have hs := h.hs; have hdt := h.dt_ne
  rw [waveAt_eq S]
  simp only []
  rw [int_add (by cts) (by cts), int_sub (by cts) (by cts), int_add (by cts) (by cts),
    int_sub (by cts) (by cts), h.E_eq]
  simp only [int_M_q_qs hq hdt n _ _ _ hs, int_DM_q_qs hq hdt n _ _ _ hs, sum_add_distrib,
    sum_sub_distrib]

theorem evalForm_stWave : evalForm S ind (D.stWave (ctr D.q D.qstar n)) U W
    = ∫ t in (n * D.dt)..((n + 1 : ℕ) * D.dt), waveAt S D n U W t := by
  rw [int_waveAt S h, Disc.stWave, evalForm_loop2]
  refine sum_congr rfl fun j _ => sum_congr rfl fun k _ => ?_
  rw [evalForm_append, evalForm_guard S ind U W h.elmat]
  simp only [evalForm_cons, evalForm_nil, Term.eval, eval_at, SOp.eval, ctr, blk]
  ring

theorem evalForm_stAdj : evalForm S ind (D.stAdj (ctr D.q D.qstar n)) U W
    = ∫ t in (n * D.dt)..((n + 1 : ℕ) * D.dt), waveAt S D n W U t := by
  rw [int_waveAt S h, Disc.stAdj, evalForm_loop2]
  refine sum_congr rfl fun j _ => sum_congr rfl fun k _ => ?_
  rw [evalForm_append, evalForm_guard S ind U W h.elmat]
  simp only [evalForm_cons, evalForm_nil, Term.eval, eval_at, SOp.eval, ctr, blk,
    S.mass_symm (U _ _) (W _ _), S.stiff_symm (U _ _) (W _ _)]
  ring

theorem evalForm_stData : evalForm S ind (D.stData (ctr D.q D.qstar n)) U W
    = ∫ t in (n * D.dt)..((n + 1 : ℕ) * D.dt),
        D.gData * S.omega ind (Spec.val D.q D.dt n (U 0) t) (Spec.val D.q D.dt n (W 0) t) := by
  rw [intervalIntegral.integral_const_mul, int_M_q_q (qstar := D.qstar) h.hq h.dt_ne,
    Disc.stData, evalForm_loop2, mul_sum, ← h.E_eq]
  refine sum_congr rfl fun j _ => ?_
  rw [mul_sum]
  refine sum_congr rfl fun k _ => ?_
  simp only [evalForm_cons, evalForm_nil, Term.eval, eval_at, SOp.eval, ctr, blk]
  ring

omit h in
theorem dualAt_eq : dualAt S D n U W = fun t =>
    S.mass (Spec.val D.qstar D.dt n (U 2) t) (Spec.val D.qstar D.dt n (W 2) t)
    + S.stiff (Spec.val D.qstar D.dt n (U 2) t) (Spec.val D.qstar D.dt n (W 2) t)
    + S.mass (Spec.val D.qstar D.dt n (U 3) t) (Spec.val D.qstar D.dt n (W 3) t)
    + D.lam * S.pen (Spec.val D.qstar D.dt n (U 2) t) (Spec.val D.qstar D.dt n (W 2) t) := rfl

theorem continuous_dualAt : Continuous (dualAt S D n U W) := by
  have hs := h.hs
  rw [dualAt_eq S]
  cts

theorem evalForm_stDual : evalForm S ind (D.stDual (ctr D.q D.qstar n)) U W
    = -(D.gDual * ∫ t in (n * D.dt)..((n + 1 : ℕ) * D.dt), dualAt S D n U W t) := by
  have hs := h.hs; have hdt := h.dt_ne
  rw [dualAt_eq S]
  simp only []
  rw [int_add (by cts) (by cts), int_add (by cts) (by cts), int_add (by cts) (by cts),
    intervalIntegral.integral_const_mul]
  simp only [int_M_qs_qs (q := D.q) hdt n _ _ _ hs, ← h.E_eq]
  rw [Disc.stDual, evalForm_loop2, sum_comm, mul_sum]
  simp only [← sum_add_distrib, mul_sum, ← sum_neg_distrib]
  refine sum_congr rfl fun j _ => sum_congr rfl fun k _ => ?_
  have hsym : D.E.M_qs_qs j k = D.E.M_qs_qs k j := (C04_definiteness h.elmat 0).2.1 j k
  simp only [evalForm_cons, evalForm_nil, Term.eval, eval_at, SOp.eval, ctr, blk, hsym]
  ring

omit h in
theorem primalAt_eq : primalAt S D n U W = fun t =>
    D.lam * S.pen (Spec.val D.q D.dt n (U 0) t) (Spec.val D.q D.dt n (W 0) t)
    + S.ghost (Spec.val D.q D.dt n (U 0) t) (Spec.val D.q D.dt n (W 0) t)
    + ((S.mass (Spec.val D.q D.dt n (U 1) t) (Spec.val D.q D.dt n (W 1) t)
      - S.mass (Spec.val D.q D.dt n (U 1) t) (Spec.valDt D.q D.dt n (W 0) t))
      - (S.mass (Spec.valDt D.q D.dt n (U 0) t) (Spec.val D.q D.dt n (W 1) t)
        - S.mass (Spec.valDt D.q D.dt n (U 0) t) (Spec.valDt D.q D.dt n (W 0) t)))
    + ((S.h2 (Spec.valDt D.q D.dt n (U 1) t) (Spec.valDt D.q D.dt n (W 1) t)
      - S.h2.compl₂ S.lap (Spec.valDt D.q D.dt n (U 1) t) (Spec.val D.q D.dt n (W 0) t))
      - (S.h2.comp S.lap (Spec.val D.q D.dt n (U 0) t) (Spec.valDt D.q D.dt n (W 1) t)
        - (S.h2.comp S.lap).compl₂ S.lap (Spec.val D.q D.dt n (U 0) t)
            (Spec.val D.q D.dt n (W 0) t))) := by
  funext t
  simp only [primalAt, Spec.primalStab, map_sub, LinearMap.sub_apply, LinearMap.compl₂_apply,
    LinearMap.comp_apply]
  ring

theorem continuous_primalAt : Continuous (primalAt S D n U W) := by
  have hq := h.hq
  rw [primalAt_eq S]
  cts

theorem evalForm_stPrimal : evalForm S ind (D.stPrimal (ctr D.q D.qstar n)) U W
    = D.gPrimal * ∫ t in (n * D.dt)..((n + 1 : ℕ) * D.dt), primalAt S D n U W t := by
  have hq := h.hq; have hdt := h.dt_ne
  rw [primalAt_eq S]
  simp only []
  rw [int_add (by cts) (by cts), int_add (by cts) (by cts), int_add (by cts) (by cts),
    int_sub (by cts) (by cts), int_sub (by cts) (by cts), int_sub (by cts) (by cts),
    int_sub (by cts) (by cts), int_sub (by cts) (by cts), int_sub (by cts) (by cts),
    intervalIntegral.integral_const_mul]
  simp only [int_M_q_q (qstar := D.qstar) hq hdt, int_DM_q_q (qstar := D.qstar) hq hdt,
    int_DM_q_q' (qstar := D.qstar) hq hdt, int_DDM_q_q (qstar := D.qstar) hq hdt, ← h.E_eq]
  rw [Disc.stPrimal, evalForm_loop2]
  simp only [← sum_add_distrib, ← sum_sub_distrib, mul_sum]
  refine sum_congr rfl fun j _ => sum_congr rfl fun k _ => ?_
  simp only [evalForm_cons, evalForm_nil, Term.eval, eval_at, SOp.eval, ctr, blk,
    LinearMap.compl₂_apply, LinearMap.comp_apply]
  ring

/-! ### traces at slab interfaces -/

omit h in
theorem val_bottom {q : ℕ} (hq : q ≤ 3) (dt : ℝ) (n : ℕ) (F : ℤ → V) :
    Spec.val q dt n F (n * dt) = F (n * (q + 1)) := by
  unfold Spec.val
  rw [sum_eq_single 0]
  · have : phi q 0 ((n * dt - n * dt) / dt) = 1 := by
      rw [sub_self, zero_div]
      rcases Nat.eq_zero_or_pos q with rfl | h0
      · rfl
      · simpa using C01_basis_nodal hq h0 (Nat.zero_le q) (Nat.zero_le q)
    rw [this]; simp
  · intro j hj hne
    have hj' := Nat.lt_succ_iff.mp (mem_range.mp hj)
    have : phi q j ((n * dt - n * dt) / dt) = 0 := by
      rw [sub_self, zero_div]
      rcases Nat.eq_zero_or_pos q with rfl | h0
      · omega
      · simpa [Ne.symm hne] using C01_basis_nodal hq h0 (Nat.zero_le q) hj'
    rw [this, zero_smul]
  · simp

omit h in
theorem val_top {q : ℕ} (hq : q ≤ 3) {dt : ℝ} (hdt : dt ≠ 0) {n : ℕ} (hn : 0 < n) (F : ℤ → V) :
    Spec.val q dt (n - 1) F (n * dt) = F (n * (q + 1) - 1) := by
  have e : ((n : ℝ) * dt - ((n - 1 : ℕ) : ℝ) * dt) / dt = 1 := by
    rw [Nat.cast_sub hn]; push_cast; field_simp; ring
  have key : ∀ j ≤ q, phi q j 1 = if j = q then 1 else 0 := by
    intro j hj
    rcases Nat.eq_zero_or_pos q with rfl | h0
    · obtain rfl : j = 0 := by omega
      simp [phi_0_0]
    · have hne : (q : ℝ) ≠ 0 := by positivity
      have := C01_basis_nodal hq h0 le_rfl hj
      rw [div_self hne] at this
      rw [this]
      simp only [eq_comm]
  unfold Spec.val
  rw [sum_eq_single q]
  · rw [e, key q le_rfl, if_pos rfl, one_smul]
    congr 1
    rw [Nat.cast_sub hn]; push_cast; ring
  · intro j hj hne
    rw [e, key j (Nat.lt_succ_iff.mp (mem_range.mp hj)), if_neg hne, zero_smul]
  · simp

theorem jump_eq (hn : 0 < n) (F : ℤ → V) :
    Spec.jump D.q D.dt n F = F (n * (D.q + 1)) - F (n * (D.q + 1) - 1) := by
  rw [Spec.jump, val_bottom h.hq, val_top h.hq h.dt_ne hn]

theorem evalForm_stInitial :
    evalForm S ind (D.stInitial n) U W = if n = 0 then Spec.initial S D U W else 0 := by
  by_cases hn : n = 0
  · subst hn
    have v0 : ∀ F : ℤ → V, Spec.val D.q D.dt 0 F 0 = F 0 := by
      intro F; simpa using val_bottom h.hq D.dt 0 F
    simp only [Spec.initial, v0]
    cases hw : D.wellPosed <;> simp [Disc.stInitial, hw, Term.eval, SOp.eval, Spec.jumpForm]
    ring
  · simp [Disc.stInitial, hn]

theorem evalForm_interface (precond : Bool) :
    evalForm S ind (D.stDualJump (ctr D.q D.qstar n) n) U W
      + evalForm S ind (D.stFwJump (ctr D.q D.qstar n) n) U W
      + evalForm S ind (D.stJump precond (ctr D.q D.qstar n) n) U W
      = if n = 0 then 0 else Spec.interface S D precond U W n := by
  by_cases hn : n = 0
  · subst hn; simp [Disc.stDualJump, Disc.stFwJump, Disc.stJump]
  · have hp : 0 < n := Nat.pos_of_ne_zero hn
    simp only [if_neg hn, Spec.interface, jump_eq h n hp, val_bottom h.hq, val_bottom h.hs]
    have i1 : (ctr D.q D.qstar n).couplingQ + 1 = n * (D.q + 1) := by simp [ctr]
    have i2 : (ctr D.q D.qstar n).couplingQs + 1 = n * (D.qstar + 1) := by simp [ctr]
    have i3 : (ctr D.q D.qstar n).couplingQ = n * (D.q + 1) - 1 := rfl
    simp only [Disc.stDualJump, Disc.stFwJump, Disc.stJump, i1, i2]
    simp only [i3, hp, if_true, decide_true,
      Bool.and_true]
    cases hj : D.jumpsFw <;> cases precond <;>
      simp only [evalForm_cons, evalForm_nil, Term.eval, eval_at, eval_diff, SOp.eval,
        Spec.jumpForm, if_true, if_false, Bool.false_eq_true] <;>
      (try simp only [S.mass_symm (U 2 _) (W 1 _ - W 1 _), S.mass_symm (U 3 _) (W 0 _ - W 0 _)]) <;> ring

end nests

end Dxss
