import Verif.Lemmas.Unique
import Verif.Lemmas.Assembly
import Verif.Lemmas.Decompose

/-! # Fields of zero energy, and the kernel of the space-time form -/

namespace Dxss
open Finset
variable {V : Type} [AddCommGroup V] [Module ℝ V]

/-- The spatial mass form and its `h`-weighted version separate functions. -/
structure Space.Definite (S : Space V) : Prop where
  mass : ∀ v, S.mass v v = 0 → v = 0
  h2 : ∀ v, S.h2 v v = 0 → v = 0

/-- Positive stabilisation weights, and a placeholder (factor `1e-20`) dominated by them. -/
structure Disc.Positive (D : Disc V) : Prop where
  dt : 0 < D.dt
  lam : 0 ≤ D.lam
  data : 0 ≤ D.gData
  dual : 0 < D.gDual
  primal : 0 < D.gPrimal
  jump : 0 < D.gJump
  dominates : (1e-20 : ℝ) ^ 2 * (D.qstar + 1) ^ 2 < 4 * (D.gJump * D.gDual)

theorem Disc.Positive.weights {D : Disc V} (h : D.Positive) : D.Weights :=
  ⟨h.dt, h.lam, h.data, h.dual.le, h.primal.le, h.jump.le⟩

theorem eq_zero_of_integral {f : ℝ → ℝ} (hf : Continuous f) (h0 : ∀ t, 0 ≤ f t) {a b : ℝ}
    (hab : a < b) (hz : ∫ t in a..b, f t = 0) : ∀ t ∈ Set.Icc a b, f t = 0 := by
  intro t ht
  by_contra hne
  have : 0 < ∫ t in a..b, f t :=
    intervalIntegral.integral_pos hab hf.continuousOn (fun x _ => h0 x)
      ⟨t, ht, lt_of_le_of_ne (h0 t) (Ne.symm hne)⟩
  exact this.ne' hz

section
variable (S : Space V) (D : Disc V) (h : D.Ok) (ind : V) (U : Field V)

/-- energy density on slab `n` -/
noncomputable def eDens (n : ℕ) (t : ℝ) : ℝ :=
  D.gData * S.omega ind (Spec.val D.q D.dt n (U 0) t) (Spec.val D.q D.dt n (U 0) t)
    + D.gDual * dualAt S D n U U t + D.gPrimal * primalAt S D n U U t

/-- energy at the bottom of slab `n` -/
noncomputable def eBot (n : ℕ) : ℝ :=
  if n = 0 then
    if D.wellPosed then D.gJump * Spec.jumpForm S D.dt (Spec.val D.q D.dt 0 (U 0) 0)
      (Spec.val D.q D.dt 0 (U 1) 0) (Spec.val D.q D.dt 0 (U 0) 0) (Spec.val D.q D.dt 0 (U 1) 0) else 0
  else
    D.gJump * Spec.jumpForm S D.dt (Spec.jump D.q D.dt n (U 0)) (Spec.jump D.q D.dt n (U 1))
      (Spec.jump D.q D.dt n (U 0)) (Spec.jump D.q D.dt n (U 1))
    + if D.jumpsFw then D.gDual * D.dt *
        (S.mass (Spec.val D.qstar D.dt n (U 2) (n * D.dt)) (Spec.val D.qstar D.dt n (U 2) (n * D.dt))
        + S.mass (Spec.val D.qstar D.dt n (U 3) (n * D.dt)) (Spec.val D.qstar D.dt n (U 3) (n * D.dt)))
      else 0

theorem energy_eq : Spec.energy S D ind U
    = ∑ n ∈ range D.N, ((∫ t in (n * D.dt)..((n + 1 : ℕ) * D.dt), eDens S D ind U n t)
        + eBot S D U n) := rfl

include h in
theorem continuous_eDens (n : ℕ) : Continuous (eDens S D ind U n) := by
  have hq := h.hq
  refine Continuous.add (Continuous.add (continuous_const.mul (cont_vv hq hq _ _ _)) ?_) ?_
  · exact continuous_const.mul (continuous_dualAt S h U U n)
  · exact continuous_const.mul (continuous_primalAt S h U U n)

variable {S D ind} (hS : S.Psd ind) (hw : D.Weights)
include hS hw

theorem eDens_nonneg (n : ℕ) (t : ℝ) : 0 ≤ eDens S D ind U n t :=
  add_nonneg (add_nonneg (mul_nonneg hw.data (hS.omega _))
      (mul_nonneg hw.dual (dualStab_nonneg hS hw.lam _ _)))
      (mul_nonneg hw.primal (primalStab_nonneg hS hw.lam _ _ _ _))

theorem eBot_nonneg (n : ℕ) : 0 ≤ eBot S D U n := by
  have := hw.dt; have := hw.dual
  unfold eBot
  split
  · split
    · exact mul_nonneg hw.jump (jumpForm_nonneg hS hw.dt _ _)
    · exact le_rfl
  · refine add_nonneg (mul_nonneg hw.jump (jumpForm_nonneg hS hw.dt _ _)) ?_
    split
    · have := hS.mass (Spec.val D.qstar D.dt n (U 2) (n * D.dt))
      have := hS.mass (Spec.val D.qstar D.dt n (U 3) (n * D.dt))
      positivity
    · exact le_rfl

theorem eInt_nonneg (n : ℕ) : 0 ≤ ∫ t in (n * D.dt)..((n + 1 : ℕ) * D.dt), eDens S D ind U n t :=
  intervalIntegral.integral_nonneg (by have := hw.dt; push_cast; nlinarith)
    fun t _ => eDens_nonneg U hS hw n t

theorem energy_zero_parts (hz : Spec.energy S D ind U = 0) {n : ℕ} (hn : n < D.N) :
    (∫ t in (n * D.dt)..((n + 1 : ℕ) * D.dt), eDens S D ind U n t) = 0 ∧ eBot S D U n = 0 := by
  rw [energy_eq, sum_eq_zero_iff_of_nonneg
    (fun n _ => add_nonneg (eInt_nonneg U hS hw n) (eBot_nonneg U hS hw n))] at hz
  have := hz n (mem_range.2 hn)
  have h1 := eInt_nonneg U hS hw n
  have h2 := eBot_nonneg U hS hw n
  exact ⟨by linarith, by linarith⟩
end

theorem jumpForm_zero {S : Space V} {ind : V} (hS : S.Psd ind) (hd : S.Definite) {dt : ℝ}
    (hdt : 0 < dt) {a b : V} (hz : Spec.jumpForm S dt a b a b = 0) : a = 0 ∧ b = 0 := by
  have h1 := hS.mass a; have h2 := hS.mass b; have h3 := hS.stiff a
  unfold Spec.jumpForm at hz
  have p1 : 0 ≤ 1 / dt * S.mass a a := by positivity
  have p2 : 0 ≤ 1 / dt * S.mass b b := by positivity
  have p3 : 0 ≤ dt * S.stiff a a := by positivity
  have q1 : 1 / dt * S.mass a a = 0 := by linarith
  have q2 : 1 / dt * S.mass b b = 0 := by linarith
  have hne : 1 / dt ≠ 0 := by positivity
  exact ⟨hd.mass _ ((mul_eq_zero.1 q1).resolve_left hne),
    hd.mass _ ((mul_eq_zero.1 q2).resolve_left hne)⟩

/-- For a field of zero energy the energy density vanishes at every time. -/
theorem energy_zero_pointwise {S : Space V} {D : Disc V} (h : D.Ok) {ind : V} (hS : S.Psd ind)
    (hw : D.Weights) (U : Field V) (hz : Spec.energy S D ind U = 0) (n : ℕ) (hn : n < D.N)
    (s : ℝ) (hs : s ∈ Set.Icc (0:ℝ) 1) : eDens S D ind U n (n * D.dt + s * D.dt) = 0 := by
  have hdt := hw.dt
  refine eq_zero_of_integral (continuous_eDens S D h ind U n) (eDens_nonneg U hS hw n) ?_
    (energy_zero_parts U hS hw hz hn).1 _ ⟨?_, ?_⟩
  · push_cast; nlinarith
  · nlinarith [hs.1]
  · push_cast; nlinarith [hs.2]

/-- A field of zero energy with zero initial state vanishes on every slab. -/
theorem energy_zero_of_start {S : Space V} {D : Disc V} (h : D.Ok) {ind : V} (hS : S.Psd ind)
    (hd : S.Definite) (hp : D.Positive) (U : Field V) (hst : U 0 0 = 0 ∧ U 1 0 = 0)
    (hz : Spec.energy S D ind U = 0) (n : ℕ) (hn : n < D.N) :
    (∀ j ≤ D.q, U 0 (n * (D.q + 1) + j) = 0 ∧ U 1 (n * (D.q + 1) + j) = 0) ∧
    (∀ j ≤ D.qstar, U 2 (n * (D.qstar + 1) + j) = 0 ∧ U 3 (n * (D.qstar + 1) + j) = 0) := by
  have hw := hp.weights
  have hdt := hp.dt
  have hq := h.hq
  have hs := h.hs
  -- pointwise
  have pt : ∀ n < D.N, ∀ s ∈ Set.Icc (0:ℝ) 1, eDens S D ind U n (n * D.dt + s * D.dt) = 0 := by
    exact energy_zero_pointwise h hS hw U hz
  have loc : ∀ (n : ℕ) (s : ℝ), ((n : ℝ) * D.dt + s * D.dt - n * D.dt) / D.dt = s := by
    intro n s; field_simp; ring
  have vloc : ∀ (q n : ℕ) (F : ℤ → V) (s : ℝ), Spec.val q D.dt n F (n * D.dt + s * D.dt)
      = comb (q + 1) (phi q) (blk q n F) s := by
    intro q n F s; simp only [Spec.val, comb, blk, loc]
  have dloc : ∀ (n : ℕ) (F : ℤ → V) (s : ℝ), Spec.valDt D.q D.dt n F (n * D.dt + s * D.dt)
      = (1 / D.dt) • comb (D.q + 1) (dphi D.q) (blk D.q n F) s := by
    intro n F s; rw [valDt_eq hq, comb_smul_right]; simp only [comb, dphiT, loc]
  have parts : ∀ n < D.N, ∀ s ∈ Set.Icc (0:ℝ) 1,
      comb (D.qstar + 1) (phi D.qstar) (blk D.qstar n (U 2)) s = 0 ∧
      comb (D.qstar + 1) (phi D.qstar) (blk D.qstar n (U 3)) s = 0 ∧
      comb (D.q + 1) (dphi D.q) (blk D.q n (U 0)) s
        = D.dt • comb (D.q + 1) (phi D.q) (blk D.q n (U 1)) s ∧
      comb (D.q + 1) (dphi D.q) (blk D.q n (U 1)) s
        = D.dt • S.lap (comb (D.q + 1) (phi D.q) (blk D.q n (U 0)) s) := by
    intro n hn s hs
    have hz := pt n hn s hs
    simp only [eDens, dualAt, primalAt, vloc, dloc] at hz
    set u1 := comb (D.q + 1) (phi D.q) (blk D.q n (U 0)) s
    set u2 := comb (D.q + 1) (phi D.q) (blk D.q n (U 1)) s
    set z1 := comb (D.qstar + 1) (phi D.qstar) (blk D.qstar n (U 2)) s
    set z2 := comb (D.qstar + 1) (phi D.qstar) (blk D.qstar n (U 3)) s
    set du1 := comb (D.q + 1) (dphi D.q) (blk D.q n (U 0)) s
    set du2 := comb (D.q + 1) (dphi D.q) (blk D.q n (U 1)) s
    have n1 := mul_nonneg hw.data (hS.omega u1)
    have n2 := dualStab_nonneg hS hw.lam z1 z2
    have n3 := primalStab_nonneg hS hw.lam u1 u2 ((1 / D.dt) • du1) ((1 / D.dt) • du2)
    have n2' := mul_nonneg hw.dual n2
    have n3' := mul_nonneg hw.primal n3
    have d0 : Spec.dualStab S D.lam z1 z2 z1 z2 = 0 :=
      (mul_eq_zero.1 (by linarith : D.gDual * Spec.dualStab S D.lam z1 z2 z1 z2 = 0)).resolve_left
        hp.dual.ne'
    have p0 := (mul_eq_zero.1 (by linarith : D.gPrimal * Spec.primalStab S D.lam u1 u2
      ((1 / D.dt) • du1) ((1 / D.dt) • du2) u1 u2 ((1 / D.dt) • du1) ((1 / D.dt) • du2) = 0)).resolve_left
        hp.primal.ne'
    unfold Spec.dualStab at d0
    unfold Spec.primalStab at p0
    have a1 := hS.mass z1; have a2 := hS.stiff z1; have a3 := hS.mass z2
    have a4 := mul_nonneg hw.lam (hS.pen z1)
    have b1 := mul_nonneg hw.lam (hS.pen u1); have b2 := hS.ghost u1
    have b3 := hS.mass (u2 - (1 / D.dt) • du1)
    have b4 := hS.h2 ((1 / D.dt) • du2 - S.lap u1)
    have c3 := sub_eq_zero.1 (hd.mass _ (by linarith : S.mass (u2 - (1 / D.dt) • du1) _ = 0))
    have c4 := sub_eq_zero.1 (hd.h2 _ (by linarith : S.h2 ((1 / D.dt) • du2 - S.lap u1) _ = 0))
    have hmul : D.dt * (1 / D.dt) = 1 := by field_simp
    refine ⟨hd.mass _ (by linarith), hd.mass _ (by linarith), ?_, ?_⟩
    · rw [c3, smul_smul, hmul, one_smul]
    · rw [← c4, smul_smul, hmul, one_smul]
  refine ⟨?_, fun j hj => ⟨?_, ?_⟩⟩
  · have bot : ∀ (n : ℕ) (F : ℤ → V), comb (D.q + 1) (phi D.q) (blk D.q n F) 0
        = F (n * (D.q + 1)) := by
      intro n F
      rw [← vloc, zero_mul, add_zero, val_bottom hq]
    have step : ∀ n < D.N, U 0 (n * (D.q + 1)) = 0 → U 1 (n * (D.q + 1)) = 0 →
        ∀ j ≤ D.q, U 0 (n * (D.q + 1) + j) = 0 ∧ U 1 (n * (D.q + 1) + j) = 0 := by
      intro n hn h0 h1
      have := slab_unique hq S.lap D.dt (blk D.q n (U 0)) (blk D.q n (U 1))
        (fun s hs => (parts n hn s hs).2.2.1) (fun s hs => (parts n hn s hs).2.2.2)
        (by rw [bot, h0]) (by rw [bot, h1])
      exact fun j hj => ⟨this.1 j hj, this.2 j hj⟩
    induction n with
    | zero => exact step 0 hn (by simpa using hst.1) (by simpa using hst.2)
    | succ n ih =>
      have hb := (energy_zero_parts U hS hw hz hn).2
      simp only [eBot, Nat.succ_ne_zero, if_false] at hb
      have p1 := mul_nonneg hw.jump (jumpForm_nonneg hS hdt
        (Spec.jump D.q D.dt (n + 1) (U 0)) (Spec.jump D.q D.dt (n + 1) (U 1)))
      have p2 : 0 ≤ if D.jumpsFw then D.gDual * D.dt *
          (S.mass (Spec.val D.qstar D.dt (n + 1) (U 2) ((n + 1 : ℕ) * D.dt))
            (Spec.val D.qstar D.dt (n + 1) (U 2) ((n + 1 : ℕ) * D.dt))
          + S.mass (Spec.val D.qstar D.dt (n + 1) (U 3) ((n + 1 : ℕ) * D.dt))
            (Spec.val D.qstar D.dt (n + 1) (U 3) ((n + 1 : ℕ) * D.dt))) else 0 := by
        split
        · exact mul_nonneg (mul_nonneg hw.dual hdt.le) (add_nonneg (hS.mass _) (hS.mass _))
        · exact le_rfl
      have hb := jumpForm_zero hS hd hdt ((mul_eq_zero.1 (by linarith :
        D.gJump * Spec.jumpForm S D.dt (Spec.jump D.q D.dt (n + 1) (U 0))
          (Spec.jump D.q D.dt (n + 1) (U 1)) (Spec.jump D.q D.dt (n + 1) (U 0))
          (Spec.jump D.q D.dt (n + 1) (U 1)) = 0)).resolve_left hp.jump.ne')
      have ih := ih (by omega) D.q le_rfl
      have top : ∀ F : ℤ → V, F (n * (D.q + 1) + D.q) = 0 → Spec.jump D.q D.dt (n + 1) F = 0 →
          F ((n + 1 : ℕ) * (D.q + 1)) = 0 := by
        intro F h0 hj
        rw [Spec.jump, val_bottom hq, val_top hq hdt.ne' (Nat.succ_pos n)] at hj
        have e : (((n + 1 : ℕ) : ℤ) * (D.q + 1) - 1) = n * (D.q + 1) + D.q := by push_cast; ring
        rw [e, h0, sub_zero] at hj
        exact hj
      exact step (n + 1) hn (top _ ih.1 hb.1) (top _ ih.2 hb.2)
  · exact comb_phi_zero hs _ (fun s hs => (parts n hn s hs).1) j hj
  · exact comb_phi_zero hs _ (fun s hs => (parts n hn s hs).2.1) j hj

/-- In the well-posed configuration a field of zero energy vanishes on every slab. -/
theorem energy_zero {S : Space V} {D : Disc V} (h : D.Ok) {ind : V} (hS : S.Psd ind)
    (hd : S.Definite) (hp : D.Positive) (hwp : D.wellPosed = true) (U : Field V)
    (hz : Spec.energy S D ind U = 0) (n : ℕ) (hn : n < D.N) :
    (∀ j ≤ D.q, U 0 (n * (D.q + 1) + j) = 0 ∧ U 1 (n * (D.q + 1) + j) = 0) ∧
    (∀ j ≤ D.qstar, U 2 (n * (D.qstar + 1) + j) = 0 ∧ U 3 (n * (D.qstar + 1) + j) = 0) := by
  refine energy_zero_of_start h hS hd hp U ?_ hz n hn
  have hb := (energy_zero_parts U hS hp.weights hz (Nat.zero_lt_of_lt hn)).2
  simp only [eBot, if_true, hwp] at hb
  have hb := jumpForm_zero hS hd hp.dt ((mul_eq_zero.1 hb).resolve_left hp.jump.ne')
  have e : ∀ F : ℤ → V, Spec.val D.q D.dt 0 F 0 = F 0 := by
    intro F; simpa using val_bottom h.hq D.dt 0 F
  rwa [e, e] at hb

/-- The energy controls the first dual coefficient. -/
theorem dual_bottom_le {S : Space V} {D : Disc V} (h : D.Ok) {ind : V} (hS : S.Psd ind)
    (hw : D.Weights) (U : Field V) :
    D.gDual * (D.dt / (D.qstar + 1) ^ 2 * S.mass (U 2 0) (U 2 0))
      ≤ ∫ t in ((0 : ℕ) * D.dt)..((0 + 1 : ℕ) * D.dt), eDens S D ind U 0 t := by
  have hdt := hw.dt
  have h1 := bottom_control h.hs hdt 0 S.mass hS.mass S.mass_symm (U 2)
  simp only [Nat.cast_zero, zero_mul] at h1
  refine (mul_le_mul_of_nonneg_left h1 hw.dual).trans ?_
  rw [← intervalIntegral.integral_const_mul]
  have hc : Continuous fun t => D.gDual * S.mass (Spec.val D.qstar D.dt 0 (U 2) t)
      (Spec.val D.qstar D.dt 0 (U 2) t) := continuous_const.mul (cont_vv h.hs h.hs _ _ _)
  simp only [Nat.cast_zero, zero_mul]
  refine intervalIntegral.integral_mono_on (by positivity)
    (hc.intervalIntegrable _ _) ((continuous_eDens S D h ind U 0).intervalIntegrable _ _)
    fun t _ => ?_
  unfold eDens dualAt Spec.dualStab
  have n1 := mul_nonneg hw.data (hS.omega (Spec.val D.q D.dt 0 (U 0) t))
  have n3 : 0 ≤ D.gPrimal * primalAt S D 0 U U t :=
    mul_nonneg hw.primal (primalStab_nonneg hS hw.lam _ _ _ _)
  have a2 := hS.stiff (Spec.val D.qstar D.dt 0 (U 2) t)
  have a3 := hS.mass (Spec.val D.qstar D.dt 0 (U 3) t)
  have a4 := mul_nonneg hw.lam (hS.pen (Spec.val D.qstar D.dt 0 (U 2) t))
  have a5 := mul_nonneg hw.dual (add_nonneg (add_nonneg a2 a3) a4)
  linarith

/-- The placeholder cannot produce a kernel. -/
theorem kernel_energy {S : Space V} {D : Disc V} (h : D.Ok) {ind : V} (hS : S.Psd ind)
    (hp : D.Positive) (hwp : D.wellPosed = true) (U : Field V)
    (hz : Spec.energy S D ind U = 1e-20 * S.mass (U 0 0) (U 2 0)) (hN : 0 < D.N) :
    Spec.energy S D ind U = 0 := by
  have hw := hp.weights
  have hdt := hp.dt
  set a := U 0 0
  set b := U 2 0
  have hbot : D.gJump * (1 / D.dt) * S.mass a a ≤ eBot S D U 0 := by
    have e : ∀ F : ℤ → V, Spec.val D.q D.dt 0 F 0 = F 0 := by
      intro F; simpa using val_bottom h.hq D.dt 0 F
    simp only [eBot, if_true, hwp, e, Spec.jumpForm]
    have p2 := hS.mass (U 1 0); have p3 := hS.stiff a
    have : 0 ≤ D.gJump * (D.dt * S.stiff a a + 1 / D.dt * S.mass (U 1 0) (U 1 0)) := by
      have := hp.jump; positivity
    change _ ≤ D.gJump * (1 / D.dt * S.mass a a + D.dt * S.stiff a a
      + 1 / D.dt * S.mass (U 1 0) (U 1 0))
    linarith
  have hint : D.gDual * (D.dt / (D.qstar + 1) ^ 2 * S.mass b b) ≤ _ := dual_bottom_le h hS hw (ind := ind) U
  have hsum : eBot S D U 0 + (∫ t in ((0 : ℕ) * D.dt)..((0 + 1 : ℕ) * D.dt), eDens S D ind U 0 t)
      ≤ Spec.energy S D ind U := by
    rw [energy_eq, add_comm]
    exact single_le_sum (f := fun n : ℕ =>
      (∫ t in (n * D.dt)..((n + 1 : ℕ) * D.dt), eDens S D ind U n t) + eBot S D U n)
      (fun n _ => add_nonneg (eInt_nonneg U hS hw n) (eBot_nonneg U hS hw n)) (mem_range.2 hN)
  set A := D.gJump * (1 / D.dt) with hA
  set B := D.gDual * (D.dt / (D.qstar + 1) ^ 2) with hB
  have hApos : 0 < A := by have := hp.jump; positivity
  have hineq : A * S.mass a a - 1e-20 * S.mass a b + B * S.mass b b ≤ 0 := by
    have hs := (add_le_add hbot hint).trans hsum
    rw [hz, ← mul_assoc, ← hB] at hs
    linarith
  have hAB : (1e-20 : ℝ) ^ 2 / 4 < A * B := by
    have e : A * B = D.gJump * D.gDual / (D.qstar + 1) ^ 2 := by rw [hA, hB]; field_simp
    have hd := hp.dominates
    have hpos : (0 : ℝ) < (D.qstar + 1) ^ 2 := by positivity
    rw [e, lt_div_iff₀ hpos]
    linarith
  have hsq := hS.mass (A • a - ((1e-20 : ℝ) / 2) • b)
  simp only [map_sub, map_smul, LinearMap.sub_apply, LinearMap.smul_apply, smul_eq_mul,
    S.mass_symm b a] at hsq
  have hb0 := hS.mass b
  have hbz : S.mass b b = 0 := by
    by_contra hne
    have hbp : 0 < S.mass b b := lt_of_le_of_ne hb0 (Ne.symm hne)
    nlinarith [mul_le_mul_of_nonneg_left hineq hApos.le, mul_lt_mul_of_pos_right hAB hbp]
  -- Cauchy–Schwarz with `mass b b = 0`
  have hab : S.mass a b = 0 := by
    have ha0 := hS.mass a
    by_contra hne
    have key : ∀ r : ℝ, 0 ≤ S.mass a a - 2 * r * S.mass a b := by
      intro r
      have := hS.mass (a - r • b)
      simp only [map_sub, map_smul, LinearMap.sub_apply, LinearMap.smul_apply, smul_eq_mul,
        S.mass_symm b a, hbz] at this
      linarith
    have := key ((S.mass a a + 1) / (2 * S.mass a b))
    have e : 2 * ((S.mass a a + 1) / (2 * S.mass a b)) * S.mass a b = S.mass a a + 1 := by
      field_simp
    rw [e] at this; linarith
  rw [hz, hab, mul_zero]

end Dxss
