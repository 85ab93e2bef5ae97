import Verif.Lemmas.Legendre
import Verif.Lemmas.ReportDiff

/-!
# Values of a discrete function in a slab, bounded by its integral over the slab
-/

namespace Dxss
open Finset
variable {V : Type} [AddCommGroup V] [Module ℝ V]

theorem leg_le_one {s : ℝ} (h0 : 0 ≤ s) (h1 : s ≤ 1) {l : ℕ} (hl : l < 4) : leg l s ^ 2 ≤ 1 := by
  have hp : 0 ≤ s * (1 - s) := mul_nonneg h0 (by linarith)
  have hq : s * (1 - s) ≤ 1 / 4 := by nlinarith [sq_nonneg (s - 1 / 2)]
  interval_cases l
  · simp [leg]
  · simp only [leg]; nlinarith
  · have e : leg 2 s = 1 - 6 * (s * (1 - s)) := by simp only [leg]; ring
    rw [e]; nlinarith
  · have e : leg 3 s ^ 2 = (1 - 4 * (s * (1 - s))) * (1 - 10 * (s * (1 - s))) ^ 2 := by simp only [leg]; ring
    rw [e]
    set p := s * (1 - s)
    have h2 : (1 - 10 * p) ^ 2 ≤ 1 / (1 - 4 * p) ∨ 1 - 4 * p ≤ 0 := by
      rcases le_or_gt (1 - 4 * p) 0 with h | h
      · exact Or.inr h
      · left
        rw [le_div_iff₀ h]
        nlinarith [mul_nonneg hp hp, mul_nonneg hp (sub_nonneg.2 hq), mul_nonneg (mul_nonneg hp hp) (sub_nonneg.2 hq)]
    rcases h2 with h | h
    · rcases eq_or_lt_of_le (show 0 ≤ 1 - 4 * p by linarith) with h0 | h0
      · rw [← h0]; norm_num
      · rw [le_div_iff₀ h0] at h; linarith
    · have : 1 - 4 * p = 0 := by linarith
      rw [this]; norm_num

variable (B : V →ₗ[ℝ] V →ₗ[ℝ] ℝ) (hB : ∀ v, 0 ≤ B v v) (hs : ∀ u v, B u v = B v u)

/-- Cauchy's inequality with weights 1, 3, 5, 7. -/
theorem leg_sum_le (hB : ∀ v, 0 ≤ B v v) (hs : ∀ u v, B u v = B v u) {s : ℝ} (h0 : 0 ≤ s) (h1 : s ≤ 1) (b : ℕ → V) :
    B (∑ l ∈ range 4, leg l s • b l) (∑ l ∈ range 4, leg l s • b l)
      ≤ 16 * (B (b 0) (b 0) + B (b 1) (b 1) / 3 + B (b 2) (b 2) / 5 + B (b 3) (b 3) / 7) := by
  set c : ℕ → V := fun l => leg l s • b l with hc
  have k : ∀ l < 4, B (c l) (c l) ≤ B (b l) (b l) := fun l hl => by
    have e : B (c l) (c l) = leg l s ^ 2 * B (b l) (b l) := by
      simp only [hc, map_smul, LinearMap.smul_apply, smul_eq_mul]; ring
    rw [e]
    exact mul_le_of_le_one_left (hB _) (leg_le_one h0 h1 hl)
  have k0 := k 0 (by norm_num); have k1 := k 1 (by norm_num); have k2 := k 2 (by norm_num); have k3 := k 3 (by norm_num)
  have a1 := hB ((3:ℝ) • c 0 - c 1)
  have a2 := hB ((5:ℝ) • c 0 - c 2)
  have a3 := hB ((7:ℝ) • c 0 - c 3)
  have a4 := hB ((5:ℝ) • c 1 - (3:ℝ) • c 2)
  have a5 := hB ((7:ℝ) • c 1 - (3:ℝ) • c 3)
  have a6 := hB ((7:ℝ) • c 2 - (5:ℝ) • c 3)
  have e : ∑ l ∈ range 4, c l = c 0 + c 1 + c 2 + c 3 := by simp [sum_range_succ]
  rw [e]
  simp only [map_sub, map_add, map_smul, LinearMap.sub_apply, LinearMap.add_apply, LinearMap.smul_apply, smul_eq_mul,
    hs (c 1) (c 0), hs (c 2) (c 0), hs (c 3) (c 0), hs (c 2) (c 1), hs (c 3) (c 1), hs (c 3) (c 2)] at a1 a2 a3 a4 a5 a6 ⊢
  linarith

variable {q : ℕ} {dt : ℝ}

theorem val_sup (hB : ∀ v, 0 ≤ B v v) (hs : ∀ u v, B u v = B v u) (hq : q ≤ 3) (hdt : 0 < dt) (F : ℤ → V) {n : ℕ} {t : ℝ}
    (ht : t ∈ Set.Icc (n * dt) ((n + 1 : ℕ) * dt)) :
    B (Spec.val q dt n F t) (Spec.val q dt n F t) ≤ 16 / dt * slabSq B q dt n F := by
  obtain ⟨b, -, hb, -⟩ := leg_coeffs hq (blk q n F)
  obtain ⟨h0, h1⟩ := local_mem hdt ht
  have hv : ∀ t, Spec.val q dt n F t = ∑ l ∈ range 4, leg l ((t - n * dt) / dt) • b l := fun t => by
    rw [val_eq, ← hb]; rfl
  have hI : slabSq B q dt n F = dt * (B (b 0) (b 0) + B (b 1) (b 1) / 3 + B (b 2) (b 2) / 5 + B (b 3) (b 3) / 7) := by
    unfold slabSq
    rw [← int_leg B hs b]
    have := intervalIntegral.integral_comp_div_sub (a := n * dt) (b := (n + 1 : ℕ) * dt)
      (fun s => B (∑ l ∈ range 4, leg l s • b l) (∑ l ∈ range 4, leg l s • b l)) hdt.ne' (n : ℝ)
    have e : ∀ t : ℝ, t / dt - n = (t - n * dt) / dt := fun t => by field_simp
    simp only [e, smul_eq_mul] at this
    rw [show ((n:ℝ) * dt - n * dt) / dt = 0 by simp, show (((n + 1 : ℕ) : ℝ) * dt - n * dt) / dt = 1 by push_cast; field_simp; ring] at this
    rw [← this]
    exact intervalIntegral.integral_congr fun t _ => by simp only [hv]
  rw [hI, hv]
  refine (leg_sum_le B hB hs h0 h1 b).trans (le_of_eq ?_)
  field_simp

theorem nearSq_le_sum (hB : ∀ v, 0 ≤ B v v) (hdt : 0 < dt) (F : ℤ → V) {N n : ℕ} (hn : n < N) :
    nearSq B q dt n F ≤ ∑ n ∈ range N, slabSq B q dt n F := by
  unfold nearSq
  rcases n with _ | n
  · rw [if_pos rfl, add_zero]
    exact single_le_sum (f := fun n => slabSq B q dt n F) (fun n _ => slabSq_nonneg B hB hdt F n) (mem_range.2 hn)
  · rw [if_neg (by omega), Nat.add_sub_cancel]
    have h := sum_le_sum_of_subset_of_nonneg (f := fun n => slabSq B q dt n F) (s := {n + 1, n}) (t := range N)
      (by intro i; simp only [mem_insert, mem_singleton, mem_range]; omega) (fun n _ _ => slabSq_nonneg B hB hdt F n)
    rwa [sum_pair (by omega)] at h

theorem lift_sup (hB : ∀ v, 0 ≤ B v v) (hs : ∀ u v, B u v = B v u) (hq : q ≤ 3) (hdt : 0 < dt) (F : ℤ → V) {n : ℕ} {t : ℝ}
    (ht : t ∈ Set.Icc (n * dt) ((n + 1 : ℕ) * dt)) :
    let e := Spec.val q dt n F t - if n = 0 then 0 else
      ((2 * ((t - n * dt) / dt) - 1) * ((t - n * dt) / dt - 1)) • nodeJump q n F
    B e e ≤ 96 / dt * nearSq B q dt n F := by
  intro e
  obtain ⟨h0, h1⟩ := local_mem hdt ht
  set s := (t - n * dt) / dt with hs'
  have hnn : 0 ≤ nearSq B q dt n F := (slabSq_nonneg B hB hdt F n).trans (slabSq_le_near B hB hdt F n)
  have hv : B (Spec.val q dt n F t) (Spec.val q dt n F t) ≤ 16 / dt * nearSq B q dt n F :=
    (val_sup B hB hs hq hdt F ht).trans (mul_le_mul_of_nonneg_left (slabSq_le_near B hB hdt F n) (by positivity))
  have hp : 0 ≤ 1 / dt * nearSq B q dt n F := by positivity
  have e16 : 16 / dt * nearSq B q dt n F = 16 * (1 / dt * nearSq B q dt n F) := by ring
  have e96 : 96 / dt * nearSq B q dt n F = 96 * (1 / dt * nearSq B q dt n F) := by ring
  rw [e16] at hv
  rw [e96]
  by_cases hn : n = 0
  · have : e = Spec.val q dt n F t := by simp only [e, if_pos hn, sub_zero]
    rw [this]
    linarith
  have hj := nodeJump_le B hB hq hdt F hn
  have hq2 : ((q : ℝ) + 1) ^ 2 ≤ 16 := by
    have : (q : ℝ) ≤ 3 := by exact_mod_cast hq
    calc ((q : ℝ) + 1) ^ 2 ≤ (3 + 1) ^ 2 := by gcongr
      _ = 16 := by norm_num
  have hj' : B (nodeJump q n F) (nodeJump q n F) ≤ 32 * (1 / dt * nearSq B q dt n F) := by
    refine hj.trans ?_
    have := mul_le_mul_of_nonneg_right hq2 hp
    calc 2 * ((q + 1 : ℝ) ^ 2 / dt) * nearSq B q dt n F = 2 * ((q + 1 : ℝ) ^ 2 * (1 / dt * nearSq B q dt n F)) := by ring
      _ ≤ _ := by linarith
  have h3 := bilin_add_le B hB (Spec.val q dt n F t) (-(((2 * s - 1) * (s - 1)) • nodeJump q n F))
  have he : e = Spec.val q dt n F t + -(((2 * s - 1) * (s - 1)) • nodeJump q n F) := by
    simp only [e, if_neg hn]
    exact sub_eq_add_neg _ _
  rw [← he] at h3
  simp only [map_neg, LinearMap.neg_apply, map_smul, LinearMap.smul_apply, smul_eq_mul] at h3
  have hθ : ((2 * s - 1) * (s - 1)) * ((2 * s - 1) * (s - 1)) ≤ 1 := by
    have a1 : -1 ≤ (2 * s - 1) * (s - 1) := by nlinarith [sq_nonneg (s - 3/4)]
    have a2 : (2 * s - 1) * (s - 1) ≤ 1 := by nlinarith
    nlinarith
  have hJ := hB (nodeJump q n F)
  have h4 : (2 * s - 1) * (s - 1) * ((2 * s - 1) * (s - 1) * B (nodeJump q n F) (nodeJump q n F)) ≤ B (nodeJump q n F) (nodeJump q n F) := by
    rw [← mul_assoc]; nlinarith
  linarith

section
variable {C : Cfg V} (hC : C.Ok) (hS : C.S.Psd C.D.ind) (hP : C.D.Positive) {cd : ℝ} (hc0 : 0 ≤ cd) (hc : C.Determined cd)
  {x y : Vec} {E : ℝ} (hE : Spec.energy C.S C.D C.D.ind (C.full.field C.fe x - C.full.field C.fe y) ≤ E)
include hC hS hP hc0 hc hE

/-- The largest reported errors of two vectors are close if the energy of their difference is small. -/
theorem report_sup {r s : ErrDict} (hr : Report C x r) (hs : Report C y s) : |r.linfU - s.linfU| ≤ √(96 * cd / C.D.dt * E) := by
  have hdt := hP.dt
  have hsum := (slabSq_energy hC hS hP hc0 hc x y).trans (mul_le_mul_of_nonneg_left hE hc0)
  set F : ℤ → V := C.full.field C.fe x 0 - C.full.field C.fe y 0 with hF
  have b1 : ∀ n < C.D.N, ∀ t, InSlab C n t → |C.S.norm (C.recon x n t - C.D.sol t) - C.S.norm (C.recon y n t - C.D.sol t)|
      ≤ √(96 * cd / C.D.dt * E) := by
    intro n hn t ht
    have ht' : t ∈ Set.Icc (n * C.D.dt) ((n + 1 : ℕ) * C.D.dt) := ⟨ht.1, by push_cast; linarith [ht.2]⟩
    have h1 := lift_sup C.S.mass hS.mass C.S.mass_symm hC.disc.hq hdt F ht'
    refine norm_diff hS.mass ?_
    have h2 : C.S.mass (C.recon x n t - C.recon y n t) (C.recon x n t - C.recon y n t)
        ≤ 96 / C.D.dt * nearSq C.S.mass C.D.q C.D.dt n F := by
      refine le_trans (le_of_eq ?_) h1
      congr 1 <;> [congr 1; skip] <;>
      · rw [recon_eq hC hdt.ne' x hn, recon_eq hC hdt.ne' y hn, val_sub, nodeJump_sub, sub_sub_sub_comm]
        congr 1
        split
        · rw [sub_self]
        · rw [smul_sub]
    refine h2.trans ?_
    calc 96 / C.D.dt * nearSq C.S.mass C.D.q C.D.dt n F ≤ 96 / C.D.dt * (cd * E) :=
          mul_le_mul_of_nonneg_left ((nearSq_le_sum C.S.mass hS.mass hdt F hn).trans hsum) (by positivity)
      _ = _ := by ring
  have set1 : ∀ g : ℕ → ℝ → ℝ, {e | ∃ n < C.D.N, ∃ t ∈ C.samples, InSlab C n t ∧ e = g n t}
      = {e | ∃ i : ℕ × ℝ, (i.1 < C.D.N ∧ i.2 ∈ C.samples ∧ InSlab C i.1 i.2) ∧ e = g i.1 i.2} := by
    intro g
    ext e
    constructor
    · rintro ⟨n, hn, t, ht, hI, rfl⟩; exact ⟨(n, t), ⟨hn, ht, hI⟩, rfl⟩
    · rintro ⟨⟨n, t⟩, ⟨hn, ht, hI⟩, rfl⟩; exact ⟨n, hn, t, ht, hI, rfl⟩
  have h1 := hr.linfU; have h2 := hs.linfU
  rw [set1] at h1 h2
  exact greatest_close h1 h2 fun i hi => b1 _ hi.1 _ hi.2.2

end
end Dxss
