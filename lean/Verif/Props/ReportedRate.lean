import Verif.Lemmas.NodeControl
import Verif.Props.TimeRate
import Verif.Props.PublicApi
import Verif.Props.Inexact

/-!
# Property C90: rate of convergence of the errors reported by `measured_errors`
-/

namespace Dxss
open Finset
variable {V : Type} [AddCommGroup V] [Module ℝ V]

/-! ### The reconstruction of a discrete function -/

theorem node_eq_field {C : Cfg V} (hC : C.Ok) (v : Vec) {n j : ℕ} (hn : n < C.D.N) (hj : j ≤ C.D.q) :
    C.node v n j = C.full.field C.fe v 0 (n * (C.D.q + 1) + j) := by
  have hs : C.full.nsub 0 = (C.D.q + 1) * C.D.N := by rw [hC.fullN]; rfl
  have hlt : n * (C.D.q + 1) + j < (C.D.q + 1) * C.D.N := by
    calc n * (C.D.q + 1) + j < (n + 1) * (C.D.q + 1) := by rw [add_mul]; omega
      _ ≤ C.D.N * (C.D.q + 1) := Nat.mul_le_mul_right _ hn
      _ = _ := mul_comm _ _
  have e : ((n : ℤ) * (C.D.q + 1) + j) = ((n * (C.D.q + 1) + j : ℕ) : ℤ) := by push_cast; ring
  rw [e, FSpace.field, if_pos ⟨by omega, by rw [hs]; exact_mod_cast hlt⟩, Int.toNat_natCast]
  rfl

/-- The coefficient function at the top of slab `n - 1` and at the bottom of slab `n`: their difference. -/
def nodeJump (q n : ℕ) (F : ℤ → V) : V := F (n * (q + 1) + (0 : ℕ)) - F ((n - 1 : ℕ) * (q + 1) + q)

theorem recon_eq {C : Cfg V} (hC : C.Ok) (hdt : C.D.dt ≠ 0) (v : Vec) {n : ℕ} (hn : n < C.D.N) (t : ℝ) :
    C.recon v n t = Spec.val C.D.q C.D.dt n (C.full.field C.fe v 0) t
      - if n = 0 then 0 else ((2 * ((t - n * C.D.dt) / C.D.dt) - 1) * ((t - n * C.D.dt) / C.D.dt - 1)) •
        nodeJump C.D.q n (C.full.field C.fe v 0) := by
  unfold Cfg.recon Spec.val nodeJump
  simp only [← local_time hdt]
  congr 1
  · exact sum_congr rfl fun j hj => by rw [node_eq_field hC v hn (Nat.lt_succ_iff.1 (mem_range.1 hj))]
  · split
    · rfl
    · rw [node_eq_field hC v hn (Nat.zero_le _), node_eq_field hC v (by omega) le_rfl]

theorem reconDot_eq {C : Cfg V} (hC : C.Ok) (hdt : C.D.dt ≠ 0) (v : Vec) {n : ℕ} (hn : n < C.D.N) (t : ℝ) :
    C.reconDot v n t = Spec.valDt C.D.q C.D.dt n (C.full.field C.fe v 0) t
      - if n = 0 then 0 else (1 / C.D.dt * (4 * ((t - n * C.D.dt) / C.D.dt) - 3)) •
        nodeJump C.D.q n (C.full.field C.fe v 0) := by
  rw [valDt_eq hC.disc.hq]
  unfold Cfg.reconDot nodeJump comb dphiT blk
  simp only [← local_time hdt, smul_sub, smul_sum, smul_smul]
  congr 1
  · exact sum_congr rfl fun j hj => by rw [node_eq_field hC v hn (Nat.lt_succ_iff.1 (mem_range.1 hj))]
  · split
    · rw [smul_zero]
    · rw [node_eq_field hC v hn (Nat.zero_le _), node_eq_field hC v (by omega) le_rfl, ← smul_sub, ← smul_sub, smul_smul]

/-! ### Bounds by the integral over the slabs -/

section
variable (B : V →ₗ[ℝ] V →ₗ[ℝ] ℝ) (hB : ∀ v, 0 ≤ B v v) {q : ℕ} (hq : q ≤ 3) {dt : ℝ} (hdt : 0 < dt) (F : ℤ → V)

/-- Integral of `B` over slab `n`. -/
noncomputable def slabSq (q : ℕ) (dt : ℝ) (n : ℕ) (F : ℤ → V) : ℝ :=
  ∫ t in (n * dt)..((n + 1 : ℕ) * dt), B (Spec.val q dt n F t) (Spec.val q dt n F t)

/-- Integral over slab `n` and the one before. -/
noncomputable def nearSq (q : ℕ) (dt : ℝ) (n : ℕ) (F : ℤ → V) : ℝ :=
  slabSq B q dt n F + if n = 0 then 0 else slabSq B q dt (n - 1) F

include hB hdt in
theorem slabSq_nonneg (n : ℕ) : 0 ≤ slabSq B q dt n F :=
  intervalIntegral.integral_nonneg (by push_cast; nlinarith) fun _ _ => hB _

include hB hdt in
theorem slabSq_le_near (n : ℕ) : slabSq B q dt n F ≤ nearSq B q dt n F := by
  have := slabSq_nonneg B hB hdt F (q := q) (n - 1)
  unfold nearSq; split <;> linarith

include hB hq hdt in
theorem nodeJump_le {n : ℕ} (hn : n ≠ 0) :
    B (nodeJump q n F) (nodeJump q n F) ≤ 2 * ((q + 1) ^ 2 / dt) * nearSq B q dt n F := by
  have h1 := node_control hq (Nat.zero_le q) hdt n B hB F
  have h2 := node_control hq le_rfl hdt (n - 1) B hB F
  have h3 := bilin_add_le B hB (F (n * (q + 1) + (0 : ℕ))) (-F ((n - 1 : ℕ) * (q + 1) + q))
  rw [← sub_eq_add_neg] at h3
  simp only [map_neg, LinearMap.neg_apply, neg_neg] at h3
  rw [nearSq, if_neg hn, mul_add]
  change _ ≤ _ * slabSq B q dt n F at h1
  change _ ≤ _ * slabSq B q dt (n - 1) F at h2
  unfold nodeJump
  simp only [mul_assoc (2 : ℝ)]
  exact h3.trans (add_le_add (mul_le_mul_of_nonneg_left h1 zero_le_two) (mul_le_mul_of_nonneg_left h2 zero_le_two))

theorem local_mem {n : ℕ} {t : ℝ} (hdt : 0 < dt) (ht : t ∈ Set.Icc (n * dt) ((n + 1 : ℕ) * dt)) :
    (t - n * dt) / dt ∈ Set.Icc (0:ℝ) 1 := by
  obtain ⟨h1, h2⟩ := ht
  push_cast at h2
  exact ⟨div_nonneg (by linarith) hdt.le, by rw [div_le_one hdt]; linarith⟩

include hB hq hdt in
theorem lift_le {n : ℕ} {t : ℝ} (ht : t ∈ Set.Icc (n * dt) ((n + 1 : ℕ) * dt)) :
    let e := Spec.val q dt n F t - if n = 0 then 0 else
      ((2 * ((t - n * dt) / dt) - 1) * ((t - n * dt) / dt - 1)) • nodeJump q n F
    B e e ≤ 12 * (q + 1) ^ 4 / dt * nearSq B q dt n F := by
  intro e
  obtain ⟨h0, h1⟩ := local_mem hdt ht
  set s := (t - n * dt) / dt with hs
  have hv : B (Spec.val q dt n F t) (Spec.val q dt n F t) ≤ 4 * (q + 1) ^ 4 / dt * nearSq B q dt n F := by
    have := bilin_sum_le B hB (m := q + 1) (b := fun j => phi q j s) (β := 2) (F := fun j => F (n * (q + 1) + j))
      (Z := (q + 1) ^ 2 / dt * nearSq B q dt n F) (fun j hj => phi_le_two hq (Nat.lt_succ_iff.1 hj) ⟨h0, h1⟩)
      (fun j hj => (node_control hq (Nat.lt_succ_iff.1 hj) hdt n B hB F).trans
        (mul_le_mul_of_nonneg_left (slabSq_le_near B hB hdt F n) (by positivity)))
    refine this.trans (le_of_eq ?_)
    push_cast; ring
  have hnn : 0 ≤ nearSq B q dt n F := (slabSq_nonneg B hB hdt F n).trans (slabSq_le_near B hB hdt F n)
  have hq1 : (1 : ℝ) ≤ q + 1 := by linarith [(Nat.cast_nonneg q : (0:ℝ) ≤ q)]
  have hq2 : ((q : ℝ) + 1) ^ 2 ≤ (q + 1) ^ 4 := pow_le_pow_right₀ hq1 (by norm_num)
  by_cases hn : n = 0
  · have : e = Spec.val q dt n F t := by simp only [e, if_pos hn, sub_zero]
    rw [this]
    refine hv.trans ?_
    gcongr; norm_num
  have hj := nodeJump_le B hB hq hdt F hn
  have h3 := bilin_add_le B hB (Spec.val q dt n F t) (-(((2 * s - 1) * (s - 1)) • nodeJump q n F))
  have he : e = Spec.val q dt n F t + -(((2 * s - 1) * (s - 1)) • nodeJump q n F) := by
    simp only [e, if_neg hn]
    exact sub_eq_add_neg _ _
  rw [← he] at h3
  simp only [map_neg, LinearMap.neg_apply, map_smul, LinearMap.smul_apply, smul_eq_mul] at h3
  have hθ : ((2 * s - 1) * (s - 1)) * ((2 * s - 1) * (s - 1)) ≤ 1 := by
    have a1 : -1 ≤ (2 * s - 1) * (s - 1) := by nlinarith [sq_nonneg (s - 3/4)]
    have a2 : (2 * s - 1) * (s - 1) ≤ 1 := by nlinarith
    nlinarith
  have hJ := hB (nodeJump q n F)
  have h4 : (2 * s - 1) * (s - 1) * ((2 * s - 1) * (s - 1) * B (nodeJump q n F) (nodeJump q n F)) ≤ B (nodeJump q n F) (nodeJump q n F) := by
    rw [← mul_assoc]; nlinarith
  have h5 : 2 * ((q + 1 : ℝ) ^ 2 / dt) * nearSq B q dt n F ≤ 2 * ((q + 1) ^ 4 / dt) * nearSq B q dt n F := by gcongr
  have h6 : 12 * (q + 1 : ℝ) ^ 4 / dt * nearSq B q dt n F
      = 2 * (4 * (q + 1 : ℝ) ^ 4 / dt * nearSq B q dt n F) + 2 * (2 * ((q + 1 : ℝ) ^ 4 / dt) * nearSq B q dt n F) := by ring
  rw [h6]
  linarith

include hB hq hdt in
theorem liftDot_le {n : ℕ} {t : ℝ} (ht : t ∈ Set.Icc (n * dt) ((n + 1 : ℕ) * dt)) :
    let e := Spec.valDt q dt n F t - if n = 0 then 0 else
      (1 / dt * (4 * ((t - n * dt) / dt) - 3)) • nodeJump q n F
    B e e ≤ 236 * (q + 1) ^ 4 / dt ^ 3 * nearSq B q dt n F := by
  intro e
  obtain ⟨h0, h1⟩ := local_mem hdt ht
  set s := (t - n * dt) / dt with hs
  have hnn : 0 ≤ nearSq B q dt n F := (slabSq_nonneg B hB hdt F n).trans (slabSq_le_near B hB hdt F n)
  have hv : B (Spec.valDt q dt n F t) (Spec.valDt q dt n F t) ≤ 100 * (q + 1) ^ 4 / dt ^ 3 * nearSq B q dt n F := by
    rw [valDt_eq hq]
    have := bilin_sum_le B hB (m := q + 1) (b := fun j => dphiT q dt n j t) (β := 1 / dt * 10) (F := fun j => F (n * (q + 1) + j))
      (Z := (q + 1) ^ 2 / dt * nearSq B q dt n F) (fun j hj => by
        rw [dphiT, abs_mul, abs_of_pos (by positivity : 0 < 1 / dt)]
        exact mul_le_mul_of_nonneg_left (dphi_le_ten hq (Nat.lt_succ_iff.1 hj) ⟨h0, h1⟩) (by positivity))
      (fun j hj => (node_control hq (Nat.lt_succ_iff.1 hj) hdt n B hB F).trans
        (mul_le_mul_of_nonneg_left (slabSq_le_near B hB hdt F n) (by positivity)))
    refine this.trans (le_of_eq ?_)
    push_cast; field_simp; ring
  have hq1 : (1 : ℝ) ≤ q + 1 := by linarith [(Nat.cast_nonneg q : (0:ℝ) ≤ q)]
  have hq2 : ((q : ℝ) + 1) ^ 2 ≤ (q + 1) ^ 4 := pow_le_pow_right₀ hq1 (by norm_num)
  by_cases hn : n = 0
  · have : e = Spec.valDt q dt n F t := by simp only [e, if_pos hn, sub_zero]
    rw [this]
    refine hv.trans ?_
    gcongr; norm_num
  have hj := nodeJump_le B hB hq hdt F hn
  have h3 := bilin_add_le B hB (Spec.valDt q dt n F t) (-((1 / dt * (4 * s - 3)) • nodeJump q n F))
  have he : e = Spec.valDt q dt n F t + -((1 / dt * (4 * s - 3)) • nodeJump q n F) := by
    simp only [e, if_neg hn]
    exact sub_eq_add_neg _ _
  rw [← he] at h3
  simp only [map_neg, LinearMap.neg_apply, map_smul, LinearMap.smul_apply, smul_eq_mul] at h3
  have hθ : (4 * s - 3) ^ 2 ≤ 9 := by nlinarith
  have hJ := hB (nodeJump q n F)
  have h4 : 1 / dt * (4 * s - 3) * (1 / dt * (4 * s - 3) * B (nodeJump q n F) (nodeJump q n F))
      ≤ 9 / dt ^ 2 * B (nodeJump q n F) (nodeJump q n F) := by
    have : 1 / dt * (4 * s - 3) * (1 / dt * (4 * s - 3) * B (nodeJump q n F) (nodeJump q n F))
      = (4 * s - 3) ^ 2 / dt ^ 2 * B (nodeJump q n F) (nodeJump q n F) := by field_simp
    rw [this]; gcongr
  have h5 : 2 * ((q + 1 : ℝ) ^ 2 / dt) * nearSq B q dt n F ≤ 2 * ((q + 1) ^ 4 / dt) * nearSq B q dt n F := by gcongr
  have h7 : 9 / dt ^ 2 * B (nodeJump q n F) (nodeJump q n F) ≤ 9 / dt ^ 2 * (2 * ((q + 1) ^ 4 / dt) * nearSq B q dt n F) := by
    gcongr; exact hj.trans h5
  have h6 : 236 * (q + 1 : ℝ) ^ 4 / dt ^ 3 * nearSq B q dt n F
      = 2 * (100 * (q + 1 : ℝ) ^ 4 / dt ^ 3 * nearSq B q dt n F)
        + 2 * (9 / dt ^ 2 * (2 * ((q + 1 : ℝ) ^ 4 / dt) * nearSq B q dt n F)) := by field_simp; ring
  rw [h6]
  linarith

include hB hdt in
theorem sum_nearSq (N : ℕ) : ∑ n ∈ range N, nearSq B q dt n F ≤ 2 * ∑ n ∈ range N, slabSq B q dt n F := by
  unfold nearSq
  rw [sum_add_distrib, two_mul]
  refine add_le_add_right ?_ _
  rcases N with _ | N
  · simp
  rw [sum_range_succ', sum_range_succ]
  simp only [Nat.add_one_ne_zero, if_false, if_true, add_zero, Nat.add_sub_cancel]
  linarith [slabSq_nonneg B hB hdt F (q := q) N]

include hB hdt in
theorem nearSq_le {N n : ℕ} (hn : n < N) : nearSq B q dt n F ≤ 2 * ∑ n ∈ range N, slabSq B q dt n F :=
  (single_le_sum (f := fun n => nearSq B q dt n F) (fun n _ => (slabSq_nonneg B hB hdt F n).trans (slabSq_le_near B hB hdt F n))
    (mem_range.2 hn)).trans (sum_nearSq B hB hdt F N)

end

omit [Module ℝ V] in
theorem nodeJump_sub (q n : ℕ) (F G : ℤ → V) : nodeJump q n (F - G) = nodeJump q n F - nodeJump q n G := by
  unfold nodeJump; exact sub_sub_sub_comm _ _ _ _

omit [Module ℝ V] in
theorem nodeJump_interpolant {D : Disc V} {p : Spec.Path V} {X : Field V} (hX : Spec.Interpolates D p X) (hq0 : 1 ≤ D.q) {n : ℕ}
    (hn : n < D.N) (hn0 : n ≠ 0) : nodeJump D.q n (X 0) = 0 := by
  have h1 := hX.u1 n hn 0 (Nat.zero_le _)
  have h2 := hX.u1 (n - 1) (by omega) D.q le_rfl
  have hq : (D.q : ℝ) ≠ 0 := by exact_mod_cast (show D.q ≠ 0 by omega)
  have e : ((n - 1 : ℕ) : ℝ) * D.dt + D.q / D.q * D.dt = n * D.dt + (0 : ℕ) / D.q * D.dt := by
    rw [Nat.cast_sub (by omega), div_self hq]; push_cast; ring
  unfold nodeJump
  rw [h1, h2, e, sub_self]

/-! ### Control by the energy -/

theorem slabSq_energy {C : Cfg V} (hC : C.Ok) (hS : C.S.Psd C.D.ind) (hp : C.D.Positive) {cd : ℝ} (hc0 : 0 ≤ cd)
    (hc : C.Determined cd) (x y : Vec) :
    ∑ n ∈ range C.D.N, slabSq C.S.mass C.D.q C.D.dt n (C.full.field C.fe x 0 - C.full.field C.fe y 0)
      ≤ cd * Spec.energy C.S C.D C.D.ind (C.full.field C.fe x - C.full.field C.fe y) := by
  have hw := hp.weights
  have hdt := hp.dt
  have hq := hC.disc.hq
  set U : Field V := C.full.field C.fe x - C.full.field C.fe y with hU
  rw [energy_eq, mul_sum]
  refine sum_le_sum fun n _ => ?_
  have low : ∀ t, C.S.mass (Spec.val C.D.q C.D.dt n (U 0) t) (Spec.val C.D.q C.D.dt n (U 0) t) ≤ cd * eDens C.S C.D C.D.ind U n t := by
    intro t
    have n2 : 0 ≤ C.D.gDual * dualAt C.S C.D n U U t := mul_nonneg hw.dual (dualStab_nonneg hS hw.lam _ _)
    have hmem : Spec.val C.D.q C.D.dt n (U 0) t ∈ C.fe.primal := by
      have : U 0 = C.full.field C.fe x 0 - C.full.field C.fe y 0 := rfl
      rw [this, val_sub]
      exact Submodule.sub_mem _ (val_mem_primal _ _ _ _ _ _ _) (val_mem_primal _ _ _ _ _ _ _)
    refine (hc _ hmem).trans (mul_le_mul_of_nonneg_left ?_ hc0)
    unfold eDens primalAt Spec.primalStab
    set u1 := Spec.val C.D.q C.D.dt n (U 0) t
    set u2 := Spec.val C.D.q C.D.dt n (U 1) t
    set du1 := Spec.valDt C.D.q C.D.dt n (U 0) t
    set du2 := Spec.valDt C.D.q C.D.dt n (U 1) t
    have b := mul_nonneg hw.primal (add_nonneg (hS.mass (u2 - du1)) (hS.h2 (du2 - C.S.lap u1)))
    linarith
  have h1 : slabSq C.S.mass C.D.q C.D.dt n (U 0) ≤ cd * ∫ t in (n * C.D.dt)..((n + 1 : ℕ) * C.D.dt), eDens C.S C.D C.D.ind U n t := by
    unfold slabSq
    rw [← intervalIntegral.integral_const_mul]
    exact intervalIntegral.integral_mono_on (by push_cast; nlinarith) ((cont_vv hq hq _ _ _).intervalIntegrable _ _)
      ((continuous_const.mul (continuous_eDens C.S C.D hC.disc C.D.ind U n)).intervalIntegrable _ _) fun t _ => low t
  refine h1.trans (mul_le_mul_of_nonneg_left ?_ hc0)
  linarith [eBot_nonneg U hS hw n]

/-! ### The reported errors -/

section
variable {C : Cfg V} {p u : Spec.Path V} {x xs : Vec} {T M : ℝ} {c1 c2 : ℕ → ℕ → ℝ → ℝ}

/-- Error of the reconstruction at one time. -/
theorem recon_error (hC : C.Ok) (hS : C.S.Psd C.D.ind) (hdt : 0 < C.D.dt) (hq0 : 1 ≤ C.D.q) (hT : C.D.N * C.D.dt = T) (hM : 0 ≤ M)
    (hp : Spec.SmoothPath C.fe C.D.q T M p c1 c2) (hX : Spec.Interpolates C.D p (C.full.field C.fe xs)) {n : ℕ} (hn : n < C.D.N) {t : ℝ}
    (ht : t ∈ Set.Icc (n * C.D.dt) ((n + 1 : ℕ) * C.D.dt)) :
    let E := C.full.field C.fe x 0 - C.full.field C.fe xs 0
    let ρ := (max 1 T * M * C.D.dt ^ C.D.q) ^ 2 * basisSum C.S.mass C.fe
    C.S.mass (C.recon x n t - u.u1 t) (C.recon x n t - u.u1 t)
      ≤ 24 * (C.D.q + 1) ^ 4 / C.D.dt * nearSq C.S.mass C.D.q C.D.dt n E + 4 * ρ
        + 4 * C.S.mass (u.u1 t - p.u1 t) (u.u1 t - p.u1 t) ∧
    C.S.mass (C.reconDot x n t - u.du1 t) (C.reconDot x n t - u.du1 t)
      ≤ 472 * (C.D.q + 1) ^ 4 / C.D.dt ^ 3 * nearSq C.S.mass C.D.q C.D.dt n E + 4 * ρ
        + 4 * C.S.mass (u.du1 t - p.du1 t) (u.du1 t - p.du1 t) := by
  intro E ρ
  have hq := hC.disc.hq
  have hB := hS.mass
  obtain ⟨s1, -, s3, -⟩ := interpolant_small hq hq0 hdt hT hM hp hX hn ht
  have split : ∀ a b c : V, C.S.mass (a - (b + c)) (a - (b + c)) ≤ 2 * C.S.mass a a + 4 * C.S.mass b b + 4 * C.S.mass c c := by
    intro a b c
    have h1 := bilin_add_le C.S.mass hB a (-(b + c))
    have h2 := bilin_add_le C.S.mass hB b c
    rw [← sub_eq_add_neg] at h1
    simp only [map_neg, LinearMap.neg_apply, neg_neg] at h1
    linarith
  have hj : n ≠ 0 → nodeJump C.D.q n E = nodeJump C.D.q n (C.full.field C.fe x 0) := fun hn0 => by
    rw [nodeJump_sub, nodeJump_interpolant hX hq0 hn hn0, sub_zero]
  constructor
  · have h := lift_le C.S.mass hB hq hdt E ht
    have e : C.recon x n t - u.u1 t
        = (Spec.val C.D.q C.D.dt n E t - if n = 0 then 0 else
            ((2 * ((t - n * C.D.dt) / C.D.dt) - 1) * ((t - n * C.D.dt) / C.D.dt - 1)) • nodeJump C.D.q n E)
          - ((p.u1 t - Spec.val C.D.q C.D.dt n (C.full.field C.fe xs 0) t) + (u.u1 t - p.u1 t)) := by
      rw [recon_eq hC hdt.ne' x hn, val_sub]
      split
      · abel
      · rename_i h0; rw [hj h0]; abel
    rw [e]
    refine (split _ _ _).trans ?_
    have h2 := s1.bilin C.S.mass
    have h3 : 24 * (C.D.q + 1 : ℝ) ^ 4 / C.D.dt * nearSq C.S.mass C.D.q C.D.dt n E
      = 2 * (12 * (C.D.q + 1 : ℝ) ^ 4 / C.D.dt * nearSq C.S.mass C.D.q C.D.dt n E) := by ring
    rw [h3]
    simp only at h
    linarith
  · have h := liftDot_le C.S.mass hB hq hdt E ht
    have e : C.reconDot x n t - u.du1 t
        = (Spec.valDt C.D.q C.D.dt n E t - if n = 0 then 0 else
            (1 / C.D.dt * (4 * ((t - n * C.D.dt) / C.D.dt) - 3)) • nodeJump C.D.q n E)
          - ((p.du1 t - Spec.valDt C.D.q C.D.dt n (C.full.field C.fe xs 0) t) + (u.du1 t - p.du1 t)) := by
      rw [reconDot_eq hC hdt.ne' x hn, valDt_sub]
      split
      · abel
      · rename_i h0; rw [hj h0]; abel
    rw [e]
    refine (split _ _ _).trans ?_
    have h2 := s3.bilin C.S.mass
    have h3 : 472 * (C.D.q + 1 : ℝ) ^ 4 / C.D.dt ^ 3 * nearSq C.S.mass C.D.q C.D.dt n E
      = 2 * (236 * (C.D.q + 1 : ℝ) ^ 4 / C.D.dt ^ 3 * nearSq C.S.mass C.D.q C.D.dt n E) := by ring
    rw [h3]
    simp only at h
    linarith

/-- The reported errors are bounded by the energy of the difference to an interpolant. -/
theorem report_error (hC : C.Ok) (hMe : C.Meas) (hS : C.S.Psd C.D.ind) (hP : C.D.Positive) (hq0 : 1 ≤ C.D.q) (hT : C.T = T) (hM : 0 ≤ M)
    {cd : ℝ} (hc0 : 0 ≤ cd) (hc : C.Determined cd) (hsol : ∀ t, C.D.sol t = u.u1 t) (hdsol : ∀ t, C.dsol t = u.du1 t)
    (hp : Spec.SmoothPath C.fe C.D.q T M p c1 c2) (hX : Spec.Interpolates C.D p (C.full.field C.fe xs))
    {G G' : ℝ} (hG : ∀ t ∈ Set.Icc 0 T, C.S.mass (u.u1 t - p.u1 t) (u.u1 t - p.u1 t) ≤ G)
    (hG' : ∀ t ∈ Set.Icc 0 T, C.S.mass (u.du1 t - p.du1 t) (u.du1 t - p.du1 t) ≤ G')
    {Y : ℝ} (hY : Spec.energy C.S C.D C.D.ind (C.full.field C.fe x - C.full.field C.fe xs) ≤ Y)
    {r : ErrDict} (hr : Report C x r) :
    let ρ := (max 1 T * M * C.D.dt ^ C.D.q) ^ 2 * basisSum C.S.mass C.fe
    r.linfU ^ 2 ≤ 48 * (C.D.q + 1) ^ 4 * cd / C.D.dt * Y + 4 * ρ + 4 * G ∧
    r.linfUt ^ 2 ≤ 944 * (C.D.q + 1) ^ 4 * cd / C.D.dt ^ 3 * Y + 4 * ρ + 4 * G' ∧
    r.l2l2Ut ^ 2 ≤ 944 * (C.D.q + 1) ^ 4 * cd / C.D.dt ^ 2 * Y + T * (4 * ρ + 4 * G') := by
  intro ρ
  have hdt := hP.dt
  have hTN : C.D.N * C.D.dt = T := by rw [← hT, hMe.T_eq]
  set E : ℤ → V := C.full.field C.fe x 0 - C.full.field C.fe xs 0 with hE
  have hsum : ∑ n ∈ range C.D.N, slabSq C.S.mass C.D.q C.D.dt n E ≤ cd * Y :=
    (slabSq_energy hC hS hP hc0 hc x xs).trans (mul_le_mul_of_nonneg_left hY hc0)
  have hnear : ∀ n < C.D.N, nearSq C.S.mass C.D.q C.D.dt n E ≤ 2 * (cd * Y) := fun n hn =>
    (nearSq_le C.S.mass hS.mass hdt E hn).trans (by linarith)
  have hnears : ∑ n ∈ range C.D.N, nearSq C.S.mass C.D.q C.D.dt n E ≤ 2 * (cd * Y) :=
    (sum_nearSq C.S.mass hS.mass hdt E _).trans (by linarith)
  have mem : ∀ n < C.D.N, ∀ t, InSlab C n t → t ∈ Set.Icc (n * C.D.dt) ((n + 1 : ℕ) * C.D.dt) ∧ t ∈ Set.Icc 0 T := by
    rintro n hn t ⟨h1, h2⟩
    have h3 : ((n + 1 : ℕ) : ℝ) ≤ C.D.N := by exact_mod_cast hn
    have h4 : ((n + 1 : ℕ) : ℝ) * C.D.dt ≤ T := by rw [← hTN]; gcongr
    have h5 : ((n + 1 : ℕ) : ℝ) * C.D.dt = n * C.D.dt + C.D.dt := by push_cast; ring
    have h6 : (0:ℝ) ≤ n * C.D.dt := by positivity
    exact ⟨⟨h1, by rw [h5]; exact h2⟩, by linarith, by linarith⟩
  refine ⟨?_, ?_, ?_⟩
  · obtain ⟨n, hn, t, -, ht, e⟩ := hr.linfU.1
    obtain ⟨m1, m2⟩ := mem n hn t ht
    rw [e, norm_sq hS.mass, hsol]
    have h1 := (recon_error (u := u) (x := x) hC hS hdt hq0 hTN hM hp hX hn m1).1
    have h2 : 24 * (C.D.q + 1 : ℝ) ^ 4 / C.D.dt * nearSq C.S.mass C.D.q C.D.dt n E
        ≤ 24 * (C.D.q + 1 : ℝ) ^ 4 / C.D.dt * (2 * (cd * Y)) := by gcongr; exact hnear n hn
    have h3 : 48 * (C.D.q + 1 : ℝ) ^ 4 * cd / C.D.dt * Y = 24 * (C.D.q + 1 : ℝ) ^ 4 / C.D.dt * (2 * (cd * Y)) := by ring
    rw [h3]
    linarith [hG t m2]
  · obtain ⟨n, hn, t, -, ht, e⟩ := hr.linfUt.1
    obtain ⟨m1, m2⟩ := mem n hn t ht
    rw [e, norm_sq hS.mass, hdsol]
    have h1 := (recon_error (u := u) (x := x) hC hS hdt hq0 hTN hM hp hX hn m1).2
    have h2 : 472 * (C.D.q + 1 : ℝ) ^ 4 / C.D.dt ^ 3 * nearSq C.S.mass C.D.q C.D.dt n E
        ≤ 472 * (C.D.q + 1 : ℝ) ^ 4 / C.D.dt ^ 3 * (2 * (cd * Y)) := by gcongr; exact hnear n hn
    have h3 : 944 * (C.D.q + 1 : ℝ) ^ 4 * cd / C.D.dt ^ 3 * Y = 472 * (C.D.q + 1 : ℝ) ^ 4 / C.D.dt ^ 3 * (2 * (cd * Y)) := by ring
    rw [h3]
    linarith [hG' t m2]
  · have hb : ∀ n ∈ range C.D.N, ((C.ptsHo.zip C.wsHo).map fun p =>
        p.2 * C.D.dt * C.S.norm (C.reconDot x n ((n + p.1) * C.D.dt) - C.dsol ((n + p.1) * C.D.dt)) ^ 2).sum
        ≤ C.D.dt * (472 * (C.D.q + 1) ^ 4 / C.D.dt ^ 3 * nearSq C.S.mass C.D.q C.D.dt n E + (4 * ρ + 4 * G')) := by
      intro n hn
      have hn := mem_range.1 hn
      have pt : ∀ s : ℝ, 0 ≤ s ∧ s ≤ 1 → C.S.norm (C.reconDot x n ((n + s) * C.D.dt) - C.dsol ((n + s) * C.D.dt)) ^ 2
          ≤ 472 * (C.D.q + 1) ^ 4 / C.D.dt ^ 3 * nearSq C.S.mass C.D.q C.D.dt n E + (4 * ρ + 4 * G') := by
        rintro s ⟨h0, h1⟩
        obtain ⟨m1, m2⟩ := mem n hn ((n + s) * C.D.dt) ⟨by nlinarith, by nlinarith⟩
        rw [norm_sq hS.mass, hdsol]
        have h1 := (recon_error (u := u) (x := x) hC hS hdt hq0 hTN hM hp hX hn m1).2
        linarith [hG' _ m2]
      obtain ⟨hl, hpt⟩ := hMe.pts
      rw [hMe.ws]
      rcases hpl : C.ptsHo with _ | ⟨p0, _ | ⟨p1, _ | ⟨p2, _ | ⟨p3, _ | ⟨p4, _ | _⟩⟩⟩⟩⟩ <;> rw [hpl] at hl <;> simp at hl
      rw [hpl] at hpt
      simp only [List.zip_cons_cons, List.zip_nil_right, List.map_cons, List.map_nil, List.sum_cons, List.sum_nil]
      have e0 := pt p0 (hpt p0 (by simp))
      have e1 := pt p1 (hpt p1 (by simp))
      have e2 := pt p2 (hpt p2 (by simp))
      have e3 := pt p3 (hpt p3 (by simp))
      have e4 := pt p4 (hpt p4 (by simp))
      set Z := 472 * (C.D.q + 1 : ℝ) ^ 4 / C.D.dt ^ 3 * nearSq C.S.mass C.D.q C.D.dt n E + (4 * ρ + 4 * G')
      have k : ∀ {w z : ℝ}, 0 ≤ w → z ≤ Z → w * C.D.dt * z ≤ w * C.D.dt * Z := fun hw hz =>
        mul_le_mul_of_nonneg_left hz (mul_nonneg hw hdt.le)
      have f0 := k (w := 0.04) (by norm_num) e0
      have f1 := k (w := 0.223104) (by norm_num) e1
      have f2 := k (w := 0.3118265) (by norm_num) e2
      have f3 := k (w := 0.281356) (by norm_num) e3
      have f4 := k (w := 0.1437135) (by norm_num) e4
      have : C.D.dt * Z = 0.04 * C.D.dt * Z + (0.223104 * C.D.dt * Z + (0.3118265 * C.D.dt * Z + (0.281356 * C.D.dt * Z
        + (0.1437135 * C.D.dt * Z + 0)))) := by ring
      rw [this]
      linarith
    rw [hr.l2l2Ut, Real.sq_sqrt]
    · refine (sum_le_sum hb).trans ?_
      rw [← mul_sum, sum_add_distrib, ← mul_sum, sum_const, card_range, nsmul_eq_mul, mul_add, ← mul_assoc C.D.dt (C.D.N : ℝ),
        mul_comm C.D.dt (C.D.N : ℝ), hTN]
      refine add_le_add_left ?_ _
      calc C.D.dt * (472 * (C.D.q + 1 : ℝ) ^ 4 / C.D.dt ^ 3 * ∑ n ∈ range C.D.N, nearSq C.S.mass C.D.q C.D.dt n E)
          ≤ C.D.dt * (472 * (C.D.q + 1 : ℝ) ^ 4 / C.D.dt ^ 3 * (2 * (cd * Y))) := by gcongr
        _ = _ := by field_simp; ring
    · refine sum_nonneg fun n _ => List.sum_nonneg ?_
      simp only [List.mem_map]
      rintro _ ⟨w, hw, rfl⟩
      have := (List.of_mem_zip (a := w.1) (b := w.2) hw).2
      rw [hMe.ws] at this
      have hw0 : 0 ≤ w.2 := by
        simp only [List.mem_cons, List.not_mem_nil, or_false] at this
        rcases this with h | h | h | h | h <;> rw [h] <;> norm_num
      positivity

end

/-- C90: when data, boundary values and jumps of the gradient together determine the finite element functions, the errors which `measured_errors`
reports for the solution of the linear system converge: with `Y = c M² dt^(2q) + 6 pathDist(u, p) + floor`, the squares of
"L2-u1-T" and "L-infty-L2-error-u" are at most a constant times `Y / dt`, that of "L-infty-L2-error-u_t" at most a constant times
`Y / dt³`, that of "L2-L2-error-u_t" at most a constant times `Y / dt²`, up to the approximation of `u` by `p`. -/
theorem C90_reported_errors (interp : V →ₗ[ℝ] V) (a : Args V) (om : DataDomain V) (S : Space V) (fe : FE V) (g : V →ₗ[ℝ] V →ₗ[ℝ] ℝ)
    (hg0 : ∀ v, 0 ≤ g v v) (hg : ∀ v y, S.nit v y ^ 2 ≤ g v v * S.pen y y) (hq0 : 1 ≤ a.otime.q) (hT : 0 < a.T) :
    ∃ c, ∀ (N : ℤ) (B : Built V) (om' : DataDomain V), construct interp { a with N := N } om = (.ok B, om') → 0 < N →
      ∀ C : Cfg V, C.Ok → C.OfBuilt B → C.S = S → C.fe = fe → S.Psd C.D.ind → C.D.Positive → 0 < C.D.lam →
      ∀ K, C.Observable K → K * ((1e-20) ^ 2 * (C.D.qstar + 1) ^ 2) ≤ 1e-2 * (C.D.gDual * (a.T / N)) →
      ∀ cd, 0 ≤ cd → C.Determined cd →
      ∀ u : Spec.Path V, Spec.WaveSolution S fe.dual u (Set.Icc 0 a.T) → (∀ t, a.sol t = u.u1 t) → (∀ t, a.dsol t = u.du1 t) →
      ∀ (p : Spec.Path V) (c1 c2 : ℕ → ℕ → ℝ → ℝ) (M P G G' : ℝ), 0 ≤ M → Spec.SmoothPath fe a.otime.q.toNat a.T M p c1 c2 →
      (∀ t ∈ Set.Icc 0 a.T, S.omega C.D.ind (p.u1 t) (p.u1 t) ≤ P) →
      (∀ t ∈ Set.Icc 0 a.T, S.mass (u.u1 t - p.u1 t) (u.u1 t - p.u1 t) ≤ G) →
      (∀ t ∈ Set.Icc 0 a.T, S.mass (u.du1 t - p.du1 t) (u.du1 t - p.du1 t) ≤ G') →
      (∀ n < C.D.N, IntervalIntegrable (fun t => Spec.errDens S C.D g (u.u1 t - p.u1 t) (u.u2 t - p.u2 t) (u.du1 t - p.du1 t)
        (u.du2 t - p.du2 t)) MeasureTheory.volume (n * C.D.dt) ((n + 1 : ℕ) * C.D.dt)) →
      (∀ X : Field V, ∀ n < C.D.N, IntervalIntegrable (Spec.distDens S C.D (fun v => g v v) u X n) MeasureTheory.volume
        (n * C.D.dt) ((n + 1 : ℕ) * C.D.dt)) →
      ∀ (w₀ : World V), w₀.Fresh → w₀.NoFail → ∀ (ops ops' : List (Op V)), (∀ op ∈ ops, ¬ op.WritesInitial) →
      ∀ (r : Ref) (w₁ : World V), getSpacetimeRhs C (runOps C (.setupFE :: .setInitial (u.u1 0) (u.u2 0) :: ops) w₀) = (.ok r, w₁) →
      ∀ (v₀ : World V), v₀.Fresh → (∀ op ∈ ops', ¬ op.OtherFlag false) →
      ∀ (A : Mat) (v₁ : World V), getSpacetimeMatrix C false (runOps C ops' v₀) = (.ok A, v₁) →
      ∀ Q : ℕ → (ℝ → ℝ) → ℝ, (∀ n < C.D.N, RuleOnSlab B.qr (a.T / N) n (Q n)) →
      ∀ (x : InVec) (z₀ : World V) (ops'' : List (Op V)), z₀.Fresh →
      (∀ d < C.full.size, A.mult ((runOps C ops'' z₀).heap x.ref) d = w₁.heap r d) →
      ∀ (rep : ErrDict) (z₁ : World V), measuredErrors C x.ref (runOps C ops'' z₀) = (.ok rep, z₁) →
      let dt := a.T / N
      let Y := c * M ^ 2 * dt ^ (2 * a.otime.q.toNat) + 6 * Spec.pathDist S C.D C.D.ind g Q u p
        + 6 * ((2e-5) ^ 2 * (2 * a.stabs.data * P * a.T)
          + (1e-20) ^ 2 * (C.D.qstar + 1) ^ 2 / (a.stabs.dual * dt) * S.mass (S.one - p.u1 0) (S.one - p.u1 0))
      let R := c * M ^ 2 * dt ^ (2 * a.otime.q.toNat)
      rep.l2T ^ 2 ≤ 48 * (C.D.q + 1) ^ 4 * cd / dt * Y + R + 4 * G ∧
      rep.linfU ^ 2 ≤ 48 * (C.D.q + 1) ^ 4 * cd / dt * Y + R + 4 * G ∧
      rep.linfUt ^ 2 ≤ 944 * (C.D.q + 1) ^ 4 * cd / dt ^ 3 * Y + R + 4 * G' ∧
      rep.l2l2Ut ^ 2 ≤ 944 * (C.D.q + 1) ^ 4 * cd / dt ^ 2 * Y + a.T * (R + 4 * G') := by
  obtain ⟨c, hc⟩ := C89_time_rate interp a om S fe g hg0 hg hq0
  refine ⟨max c (4 * basisSum S.mass fe * max 1 a.T ^ 2), ?_⟩
  rintro N B om' hb hN C hC hB rfl rfl hS hp hlam K ho hK cd hcd hdet u hu hdata hddata p c1 c2 M P G G' hM hP hPb hG hG' hi hint
    w₀ h₀ hf ops ops' hops r w₁ hrhs v₀ g₀ hops' A v₁ hmat Q hQ x z₀ ops'' hz hx rep z₁ hrep
  obtain ⟨xs, hX, he⟩ := hc N B om' hb hN C hC hB rfl rfl hS hp hlam K ho hK u hu hdata p c1 c2 M P hM hP hPb hi hint w₀ h₀ hf ops ops'
    hops r w₁ hrhs v₀ g₀ hops' A v₁ hmat Q hQ _ hx
  obtain ⟨b, -, hBe⟩ := construct_facts hb
  have hD := hB.D
  have hMe : C.Meas := Meas.of_construct hb hN hT ⟨hB.D, hB.T, hB.dsol, hB.samples, hB.ptsHo, hB.wsHo⟩
  rw [hBe] at hD
  have hdt : C.D.dt = a.T / N := by rw [hD]; rfl
  have hq : C.D.q = a.otime.q.toNat := by rw [hD]; rfl
  have hsol : C.D.sol = a.sol := by rw [hD]; rfl
  have hdsol : C.dsol = a.dsol := by rw [hB.dsol, hBe]; rfl
  have hCT : C.T = a.T := by rw [hB.T, hBe]; rfl
  intro dt Y R
  have hdt' : C.D.dt = dt := hdt
  have hdt0 : 0 < dt := by rw [← hdt']; exact hp.dt
  set κ := max c (4 * basisSum C.S.mass C.fe * max 1 a.T ^ 2) with hκ
  have hpow : 0 ≤ M ^ 2 * dt ^ (2 * a.otime.q.toNat) := by positivity
  have hY : Spec.energy C.S C.D C.D.ind (C.full.field C.fe ((runOps C ops'' z₀).heap x.ref) - C.full.field C.fe xs) ≤ Y := by
    refine he.trans ?_
    have : c * (M ^ 2 * dt ^ (2 * a.otime.q.toNat)) ≤ κ * (M ^ 2 * dt ^ (2 * a.otime.q.toNat)) :=
      mul_le_mul_of_nonneg_right (le_max_left _ _) hpow
    simp only [Y]
    rw [mul_assoc, mul_assoc κ]
    linarith
  have hrho : 4 * ((max 1 a.T * M * C.D.dt ^ C.D.q) ^ 2 * basisSum C.S.mass C.fe) ≤ R := by
    have e : 4 * ((max 1 a.T * M * C.D.dt ^ C.D.q) ^ 2 * basisSum C.S.mass C.fe)
        = 4 * basisSum C.S.mass C.fe * max 1 a.T ^ 2 * (M ^ 2 * dt ^ (2 * a.otime.q.toNat)) := by
      rw [hdt', hq, mul_pow, mul_pow, ← pow_mul, mul_comm a.otime.q.toNat 2]; ring
    rw [e]
    simp only [R]
    rw [mul_assoc κ]
    exact mul_le_mul_of_nonneg_right (le_max_right _ _) hpow
  have hR := C42_any_history hMe hS.mass hz ops'' x hrep
  obtain ⟨k1, k2, k3⟩ := report_error (u := u) (x := (runOps C ops'' z₀).heap x.ref) hC hMe hS hp (by rw [hq]; omega) hCT hM hcd hdet
    (fun t => by rw [hsol]; exact hdata t) (fun t => by rw [hdsol]; exact hddata t) (by rw [hq]; exact hP) hX hG hG' hY hR
  rw [hdt'] at k1 k2 k3 hrho
  have k0 : rep.l2T ^ 2 ≤ rep.linfU ^ 2 := pow_le_pow_left₀ (C42_nonneg hR).1 (C42_final_le_max hMe hR) 2
  refine ⟨k0.trans ?_, ?_, ?_, ?_⟩
  · linarith
  · linarith
  · linarith
  · refine k3.trans (add_le_add_right (mul_le_mul_of_nonneg_left ?_ hT.le) _)
    linarith

namespace Example

theorem cfgMode_determined {N : ℕ} {B : Built V3} {om' : DataDomain V3}
    (hb : construct LinearMap.id { args3 with N := (N : ℤ) } ⟨(1, 0, 0), false⟩ = (.ok B, om')) : (cfgMode N B).Determined 1e-4 := by
  obtain ⟨b, -, rfl⟩ := construct_facts hb
  intro u _
  change modeSpace.mass u u ≤ 1e-4 * (args3.stabs.data * modeSpace.omega (1, 0, 0) u u
    + args3.stabs.primal * ((builtOf LinearMap.id { args3 with N := (N : ℤ) } ⟨(1, 0, 0), false⟩ b).D.lam * modeSpace.pen u u + 0))
  have hl : (builtOf LinearMap.id { args3 with N := (N : ℤ) } ⟨(1, 0, 0), false⟩ b).D.lam = 5 := by norm_num [builtOf, args3]
  have p := modeSpace_psd.pen u
  rw [omega_one, hl]
  simp only [args3]
  linarith

/-- C90 applies to the standing wave for every number of slabs: the square of the largest displacement error reported for the computed
solution is bounded by a constant times `N⁻¹`, down to the floor. -/
example : ∃ c, ∀ N : ℕ, 0 < N → ∃ B w₁ v₁ A x rep z₁,
    getSpacetimeRhs (cfgMode N B) (runOps (cfgMode N B) [.setupFE, .setInitial (wave3.u1 0) (wave3.u2 0)] (freshWorld fun _ => 0))
      = (.ok .rhs, w₁) ∧
    getSpacetimeMatrix (cfgMode N B) false (runOps (cfgMode N B) [.setupFE] (freshWorld fun _ => 0)) = (.ok A, v₁) ∧
    (∀ d < (cfgMode N B).full.size, A.mult x d = w₁.heap .rhs d) ∧ B.D.N = N ∧
    measuredErrors (cfgMode N B) (.user 0) (runOps (cfgMode N B) [.setupFE] (freshWorld fun _ => x)) = (.ok rep, z₁) ∧
    rep.linfU ^ 2 ≤ 48 * (1 + 1) ^ 4 * 1e-4 / (1 / N) * (c * (1 / N) ^ 2
        + 6 * ((2e-5) ^ 2 * (2 * 1e4 * modeSpace.omega (1, 0, 0) (0, 0, 1) (0, 0, 1))
          + (1e-20) ^ 2 * (1 + 1) ^ 2 / (1 / N) * modeSpace.mass (modeSpace.one - wave3.u1 0) (modeSpace.one - wave3.u1 0)))
      + c * (1 / N) ^ 2 := by
  obtain ⟨c, hc⟩ := C90_reported_errors LinearMap.id args3 ⟨(1, 0, 0), false⟩ modeSpace feMode fluxForm
    (fun v => by rw [fluxForm_eq]; unfold flux3; positivity) (fun v y => by rw [fluxForm_eq]; exact flux3_bound v y)
    (by simp [args3]) (by simp [args3])
  refine ⟨c * ((2 * Real.pi) ^ 3) ^ 2, fun N hN => ?_⟩
  obtain ⟨B, hb, hC, hO, hP, hi, hwp, hNB, hdt, hqs, hgd, hgj, hlam⟩ := builtMode hN
  obtain ⟨w₁, hr⟩ := getRhs_after (cfgMode N B) (fun _ => 0) (wave3.u1 0) (wave3.u2 0) []
  obtain ⟨v₁, hm⟩ := getMatrix_ok (cfgMode N B) false fun _ => 0
  have hi' : (cfgMode N B).D.ind = (1, 0, 0) := hi
  have hS : modeSpace.Psd (cfgMode N B).D.ind := by rw [hi']; exact modeSpace_psd
  obtain ⟨hsz, hU⟩ := C15_unique_solution hC hS modeSpace_definite hP hwp feMode_indep
    (freshWorld_fresh _) [.setupFE] (by simp [Op.OtherFlag]) hm
  obtain ⟨x, hx, -⟩ := hU (w₁.heap .rhs)
  rw [hsz] at hx
  have hN0 : (0 : ℝ) < N := by exact_mod_cast hN
  have hN' : 0 < (cfgMode N B).D.N := by change 0 < B.D.N; rw [hNB]; exact hN
  have hMe : (cfgMode N B).Meas := Meas.of_construct hb (show (0 : ℤ) < (N : ℤ) by exact_mod_cast hN) (show (0 : ℝ) < 1 from one_pos)
    ⟨hO.D, hO.T, hO.dsol, hO.samples, hO.ptsHo, hO.wsHo⟩
  obtain ⟨rep, z₁, hrep⟩ := C42_returns hMe hS.mass (freshWorld_fresh fun _ => x) (freshWorld_noFail _) [] (.user 0)
  refine ⟨B, w₁, v₁, _, x, rep, z₁, hr, hm, hx, hNB, hrep, ?_⟩
  choose Q hQ using exists_ruleOnSlab (construct_qr hb).1 (args3.T / (N : ℤ))
  have key := hc N B _ hb (by exact_mod_cast hN) (cfgMode N B) hC hO rfl rfl hS hP (by change 0 < B.D.lam; rw [hlam]; norm_num)
    _ (C68_initial_values_observe hC hS modeSpace_definite hP hwp hN')
    (by
      change B.D.dt / B.D.gJump * ((1e-20) ^ 2 * ((B.D.qstar : ℝ) + 1) ^ 2) ≤ 1e-2 * (B.D.gDual * (1 / ((N : ℤ) : ℝ)))
      rw [hdt, hqs, hgd, hgj]
      have : (0 : ℝ) < 1 / N := by positivity
      push_cast
      nlinarith)
    1e-4 (by norm_num) (cfgMode_determined hb)
    wave3 (wave3_solution _ _) (fun t => rfl) (fun t => rfl) wave3 waveC1 waveC2 ((2 * Real.pi) ^ 3)
    (modeSpace.omega (1, 0, 0) (0, 0, 1) (0, 0, 1)) 0 0 (by positivity)
    (by simpa [args3] using wave3_smooth)
    (by
      intro t _
      rw [hi']
      have h1 := modeSpace_psd.omega (0, 0, 1)
      have h2 := Real.cos_sq_le_one (2 * Real.pi * t)
      simp only [wave3, map_smul, LinearMap.smul_apply, smul_eq_mul]
      nlinarith)
    (fun t _ => by simp) (fun t _ => by simp)
    (fun n _ => by simp only [sub_self]; exact intervalIntegrable_const)
    (fun X n _ => by
      have : (fun v => fluxForm v v) = flux3 := funext fluxForm_eq
      rw [this]
      exact (distDens_cont hC.disc X n).intervalIntegrable _ _)
    _ (freshWorld_fresh _) (freshWorld_noFail _) [] [.setupFE] (by simp) _ _ hr _ (freshWorld_fresh _) (by simp [Op.OtherFlag]) _ _ hm
    Q (fun n _ => hQ n) (.user 0) (freshWorld fun _ => x) [.setupFE] (freshWorld_fresh _) hx rep z₁ hrep
  have hpd : Spec.pathDist modeSpace (cfgMode N B).D (cfgMode N B).D.ind fluxForm Q wave3 wave3 = 0 :=
    pathDist_self (r := B.qr) _ _ _ _ (fun n _ => by
      have : (cfgMode N B).D.dt = args3.T / (N : ℤ) := by change B.D.dt = _; rw [hdt]; simp [args3]
      rw [this]; exact hQ n) _
  have e1 : ((cfgMode N B).D.qstar : ℝ) = 1 := by change ((B.D.qstar : ℕ) : ℝ) = 1; rw [hqs]; norm_num
  have e2 : ((cfgMode N B).D.q : ℝ) = 1 := by
    obtain ⟨b, -, rfl⟩ := construct_facts hb
    change (((builtOf LinearMap.id { args3 with N := (N : ℤ) } ⟨(1, 0, 0), false⟩ b).D.q : ℕ) : ℝ) = 1
    simp [builtOf, args3]
  have k := key.2.1
  simp only [hpd, e1, e2, mul_zero, add_zero] at k
  simp only [args3, Int.cast_natCast, Int.toNat_one, mul_one, one_mul] at k
  exact k

end Example

end Dxss
