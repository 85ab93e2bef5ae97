import Verif.Props.ReportedRate

/-!
# The reported errors of two vectors differ by no more than the energy of the difference
-/

namespace Dxss
open Finset
variable {V : Type} [AddCommGroup V] [Module ℝ V]

section
variable {W : Type} [AddCommGroup W] [Module ℝ W] (B : W →ₗ[ℝ] W →ₗ[ℝ] ℝ) (hB : ∀ v, 0 ≤ B v v) (hs : ∀ u v, B u v = B v u)
include hB hs

theorem bilin_cauchy (a b : W) : B a b ^ 2 ≤ B a a * B b b := by
  have key : ∀ r : ℝ, 0 ≤ B b b * (r * r) + (-2 * B a b) * r + B a a := by
    intro r
    have := hB (a - r • b)
    simp only [map_sub, map_smul, LinearMap.sub_apply, LinearMap.smul_apply, smul_eq_mul, hs b a] at this
    linarith
  have := discrim_le_zero key
  rw [discrim] at this
  linarith

theorem bilin_sqrt_add (a b : W) : √(B (a + b) (a + b)) ≤ √(B a a) + √(B b b) := by
  rw [Real.sqrt_le_left (by positivity), add_sq, Real.sq_sqrt (hB a), Real.sq_sqrt (hB b)]
  have h := bilin_cauchy B hB hs a b
  have h1 : B a b ≤ √(B a a) * √(B b b) := by
    rw [← Real.sqrt_mul (hB a)]
    exact Real.le_sqrt_of_sq_le h
  simp only [map_add, LinearMap.add_apply, hs b a]
  linarith

theorem bilin_sqrt_sub (a b : W) : |√(B a a) - √(B b b)| ≤ √(B (a - b) (a - b)) := by
  have h1 := bilin_sqrt_add B hB hs (a - b) b
  have h2 := bilin_sqrt_add B hB hs (b - a) a
  have e : B (b - a) (b - a) = B (a - b) (a - b) := by
    rw [← neg_sub a b]; simp only [map_neg, LinearMap.neg_apply, neg_neg]
  rw [sub_add_cancel] at h1 h2
  rw [e] at h2
  rw [abs_le]
  constructor <;> linarith

end

theorem greatest_close {α : Type} {P : α → Prop} {f g : α → ℝ} {a b δ : ℝ} (ha : IsGreatest {e | ∃ i, P i ∧ e = f i} a)
    (hb : IsGreatest {e | ∃ i, P i ∧ e = g i} b) (h : ∀ i, P i → |f i - g i| ≤ δ) : |a - b| ≤ δ := by
  obtain ⟨⟨i, hi, rfl⟩, ha⟩ := ha
  obtain ⟨⟨j, hj, rfl⟩, hb⟩ := hb
  have h1 : g i ≤ g j := hb ⟨i, hi, rfl⟩
  have h2 : f j ≤ f i := ha ⟨j, hj, rfl⟩
  have h3 := abs_le.1 (h i hi)
  have h4 := abs_le.1 (h j hj)
  rw [abs_le]
  constructor <;> linarith

theorem norm_diff {S : Space V} (hS : ∀ u, 0 ≤ S.mass u u) {a b s : V} {Z : ℝ} (h : S.mass (a - b) (a - b) ≤ Z) :
    |S.norm (a - s) - S.norm (b - s)| ≤ √Z := by
  refine (bilin_sqrt_sub S.mass hS S.mass_symm _ _).trans (Real.sqrt_le_sqrt ?_)
  rwa [sub_sub_sub_cancel_right]

section
variable {C : Cfg V} (hC : C.Ok) (hS : C.S.Psd C.D.ind) (hP : C.D.Positive) {cd : ℝ} (hc0 : 0 ≤ cd) (hc : C.Determined cd)
  {x y : Vec} {E : ℝ} (hE : Spec.energy C.S C.D C.D.ind (C.full.field C.fe x - C.full.field C.fe y) ≤ E)
include hC hS hP

theorem recon_diff {n : ℕ} (hn : n < C.D.N) {t : ℝ} (ht : InSlab C n t) :
    let F : ℤ → V := C.full.field C.fe x 0 - C.full.field C.fe y 0
    C.S.mass (C.recon x n t - C.recon y n t) (C.recon x n t - C.recon y n t)
      ≤ 12 * (C.D.q + 1) ^ 4 / C.D.dt * nearSq C.S.mass C.D.q C.D.dt n F ∧
    C.S.mass (C.reconDot x n t - C.reconDot y n t) (C.reconDot x n t - C.reconDot y n t)
      ≤ 236 * (C.D.q + 1) ^ 4 / C.D.dt ^ 3 * nearSq C.S.mass C.D.q C.D.dt n F := by
  intro F
  have hdt := hP.dt
  have ht' : t ∈ Set.Icc (n * C.D.dt) ((n + 1 : ℕ) * C.D.dt) := ⟨ht.1, by push_cast; linarith [ht.2]⟩
  have h1 := lift_le C.S.mass hS.mass hC.disc.hq hdt F ht'
  have h2 := liftDot_le C.S.mass hS.mass hC.disc.hq hdt F ht'
  constructor
  · refine le_trans (le_of_eq ?_) h1
    congr 1 <;> [congr 1; skip] <;>
    · rw [recon_eq hC hdt.ne' x hn, recon_eq hC hdt.ne' y hn, val_sub, nodeJump_sub, sub_sub_sub_comm]
      congr 1
      split
      · rw [sub_self]
      · rw [smul_sub]
  · refine le_trans (le_of_eq ?_) h2
    congr 1 <;> [congr 1; skip] <;>
    · rw [reconDot_eq hC hdt.ne' x hn, reconDot_eq hC hdt.ne' y hn, valDt_sub, nodeJump_sub, sub_sub_sub_comm]
      congr 1
      split
      · rw [sub_self]
      · rw [smul_sub]

/-- The reported errors of two vectors are close if their difference is small on the slabs. -/
theorem report_diff_of (hsum : ∑ n ∈ range C.D.N, slabSq C.S.mass C.D.q C.D.dt n (C.full.field C.fe x 0 - C.full.field C.fe y 0) ≤ cd * E)
    (hMe : C.Meas) {r s : ErrDict} (hr : Report C x r) (hs : Report C y s) :
    |r.l2T - s.l2T| ≤ √(24 * (C.D.q + 1) ^ 4 * cd / C.D.dt * E) ∧
    |r.linfU - s.linfU| ≤ √(24 * (C.D.q + 1) ^ 4 * cd / C.D.dt * E) ∧
    |r.linfUt - s.linfUt| ≤ √(472 * (C.D.q + 1) ^ 4 * cd / C.D.dt ^ 3 * E) ∧
    |r.l2l2Ut - s.l2l2Ut| ≤ √(472 * (C.D.q + 1) ^ 4 * cd / C.D.dt ^ 2 * E) := by
  have hdt := hP.dt
  set F : ℤ → V := C.full.field C.fe x 0 - C.full.field C.fe y 0 with hF
  have hnear : ∀ n < C.D.N, nearSq C.S.mass C.D.q C.D.dt n F ≤ 2 * (cd * E) := fun n hn =>
    (nearSq_le C.S.mass hS.mass hdt F hn).trans (by linarith)
  have hnears : ∑ n ∈ range C.D.N, nearSq C.S.mass C.D.q C.D.dt n F ≤ 2 * (cd * E) :=
    (sum_nearSq C.S.mass hS.mass hdt F _).trans (by linarith)
  have b1 : ∀ n < C.D.N, ∀ t, InSlab C n t → |C.S.norm (C.recon x n t - C.D.sol t) - C.S.norm (C.recon y n t - C.D.sol t)|
      ≤ √(24 * (C.D.q + 1) ^ 4 * cd / C.D.dt * E) := by
    intro n hn t ht
    refine norm_diff hS.mass ((recon_diff hC hS hP hn ht).1.trans ?_)
    calc 12 * (C.D.q + 1 : ℝ) ^ 4 / C.D.dt * nearSq C.S.mass C.D.q C.D.dt n F
        ≤ 12 * (C.D.q + 1 : ℝ) ^ 4 / C.D.dt * (2 * (cd * E)) := by gcongr; exact hnear n hn
      _ = _ := by ring
  have b2 : ∀ n < C.D.N, ∀ t, InSlab C n t → |C.S.norm (C.reconDot x n t - C.dsol t) - C.S.norm (C.reconDot y n t - C.dsol t)|
      ≤ √(472 * (C.D.q + 1) ^ 4 * cd / C.D.dt ^ 3 * E) := by
    intro n hn t ht
    refine norm_diff hS.mass ((recon_diff hC hS hP hn ht).2.trans ?_)
    calc 236 * (C.D.q + 1 : ℝ) ^ 4 / C.D.dt ^ 3 * nearSq C.S.mass C.D.q C.D.dt n F
        ≤ 236 * (C.D.q + 1 : ℝ) ^ 4 / C.D.dt ^ 3 * (2 * (cd * E)) := by gcongr; exact hnear n hn
      _ = _ := by ring
  have set1 : ∀ g : ℕ → ℝ → ℝ, {e | ∃ n < C.D.N, ∃ t ∈ C.samples, InSlab C n t ∧ e = g n t}
      = {e | ∃ i : ℕ × ℝ, (i.1 < C.D.N ∧ i.2 ∈ C.samples ∧ InSlab C i.1 i.2) ∧ e = g i.1 i.2} := by
    intro g
    ext e
    constructor
    · rintro ⟨n, hn, t, ht, hI, rfl⟩; exact ⟨(n, t), ⟨hn, ht, hI⟩, rfl⟩
    · rintro ⟨⟨n, t⟩, ⟨hn, ht, hI⟩, rfl⟩; exact ⟨n, hn, t, ht, hI, rfl⟩
  refine ⟨?_, ?_, ?_, ?_⟩
  · rw [hr.l2T, hs.l2T, ← final_value hMe, ← final_value hMe, uh_eq_recon hMe.ok.dt_ne, uh_eq_recon hMe.ok.dt_ne]
    exact b1 _ (Nat.sub_lt hMe.N_pos one_pos) _ (final_inSlab hMe)
  · have h1 := hr.linfU; have h2 := hs.linfU
    rw [set1] at h1 h2
    exact greatest_close h1 h2 fun i hi => b1 _ hi.1 _ hi.2.2
  · have h1 := hr.linfUt; have h2 := hs.linfUt
    rw [set1] at h1 h2
    exact greatest_close h1 h2 fun i hi => b2 _ hi.1 _ hi.2.2
  · -- the weighted sum is a bilinear form on functions of slab and quadrature point
    obtain ⟨hl, hpt⟩ := hMe.pts
    rcases hpl : C.ptsHo with _ | ⟨p0, _ | ⟨p1, _ | ⟨p2, _ | ⟨p3, _ | ⟨p4, _ | _⟩⟩⟩⟩⟩ <;> rw [hpl] at hl <;> simp at hl
    rw [hpl] at hpt
    let M : ℕ → ℝ → ((ℕ × ℝ) → V) →ₗ[ℝ] ((ℕ × ℝ) → V) →ₗ[ℝ] ℝ := fun n p => C.S.mass.compl₁₂ (LinearMap.proj (n, p)) (LinearMap.proj (n, p))
    let Bf : ((ℕ × ℝ) → V) →ₗ[ℝ] ((ℕ × ℝ) → V) →ₗ[ℝ] ℝ := ∑ n ∈ range C.D.N,
      ((0.04 * C.D.dt) • M n p0 + (0.223104 * C.D.dt) • M n p1 + (0.3118265 * C.D.dt) • M n p2 + (0.281356 * C.D.dt) • M n p3
        + (0.1437135 * C.D.dt) • M n p4)
    have hM : ∀ n p u v, M n p u v = C.S.mass (u (n, p)) (v (n, p)) := fun _ _ _ _ => rfl
    have hBf : ∀ u v, Bf u v = ∑ n ∈ range C.D.N, (0.04 * C.D.dt * C.S.mass (u (n, p0)) (v (n, p0))
        + 0.223104 * C.D.dt * C.S.mass (u (n, p1)) (v (n, p1)) + 0.3118265 * C.D.dt * C.S.mass (u (n, p2)) (v (n, p2))
        + 0.281356 * C.D.dt * C.S.mass (u (n, p3)) (v (n, p3)) + 0.1437135 * C.D.dt * C.S.mass (u (n, p4)) (v (n, p4))) := by
      intro u v
      simp only [Bf, LinearMap.sum_apply, LinearMap.add_apply, LinearMap.smul_apply, smul_eq_mul, hM]
    have hB0 : ∀ v, 0 ≤ Bf v v := by
      intro v
      rw [hBf]
      refine sum_nonneg fun n _ => ?_
      have m0 := fun p => hS.mass (v (n, p))
      have := m0 p0; have := m0 p1; have := m0 p2; have := m0 p3; have := m0 p4
      positivity
    have hBs : ∀ u v, Bf u v = Bf v u := by
      intro u v
      rw [hBf, hBf]
      exact sum_congr rfl fun n _ => by simp only [C.S.mass_symm (u _)]
    have val : ∀ (z : Vec) (e : ErrDict), Report C z e → e.l2l2Ut = √(Bf (fun i => C.reconDot z i.1 ((i.1 + i.2) * C.D.dt) - C.dsol ((i.1 + i.2) * C.D.dt))
        (fun i => C.reconDot z i.1 ((i.1 + i.2) * C.D.dt) - C.dsol ((i.1 + i.2) * C.D.dt))) := by
      intro z e he
      rw [he.l2l2Ut, hBf, hpl, hMe.ws]
      congr 1
      refine sum_congr rfl fun n _ => ?_
      simp only [List.zip_cons_cons, List.zip_nil_right, List.map_cons, List.map_nil, List.sum_cons, List.sum_nil, norm_sq hS.mass]
      ring
    rw [val x r hr, val y s hs]
    refine (bilin_sqrt_sub Bf hB0 hBs _ _).trans (Real.sqrt_le_sqrt ?_)
    rw [hBf]
    have pt : ∀ n < C.D.N, ∀ p : ℝ, 0 ≤ p ∧ p ≤ 1 → C.S.mass
        (C.reconDot x n ((n + p) * C.D.dt) - C.reconDot y n ((n + p) * C.D.dt))
        (C.reconDot x n ((n + p) * C.D.dt) - C.reconDot y n ((n + p) * C.D.dt))
        ≤ 236 * (C.D.q + 1) ^ 4 / C.D.dt ^ 3 * nearSq C.S.mass C.D.q C.D.dt n F := by
      rintro n hn p ⟨h0, h1⟩
      exact (recon_diff hC hS hP hn ⟨by nlinarith, by nlinarith⟩).2
    simp only [Pi.sub_apply, sub_sub_sub_cancel_right]
    calc _ ≤ ∑ n ∈ range C.D.N, C.D.dt * (236 * (C.D.q + 1 : ℝ) ^ 4 / C.D.dt ^ 3 * nearSq C.S.mass C.D.q C.D.dt n F) := by
          refine sum_le_sum fun n hn => ?_
          have hn := mem_range.1 hn
          have e0 := pt n hn p0 (hpt p0 (by simp))
          have e1 := pt n hn p1 (hpt p1 (by simp))
          have e2 := pt n hn p2 (hpt p2 (by simp))
          have e3 := pt n hn p3 (hpt p3 (by simp))
          have e4 := pt n hn p4 (hpt p4 (by simp))
          set Z := 236 * (C.D.q + 1 : ℝ) ^ 4 / C.D.dt ^ 3 * nearSq C.S.mass C.D.q C.D.dt n F
          have k : ∀ {w z : ℝ}, 0 ≤ w → z ≤ Z → w * C.D.dt * z ≤ w * C.D.dt * Z := fun hw hz =>
            mul_le_mul_of_nonneg_left hz (mul_nonneg hw hdt.le)
          have f0 := k (w := 0.04) (by norm_num) e0
          have f1 := k (w := 0.223104) (by norm_num) e1
          have f2 := k (w := 0.3118265) (by norm_num) e2
          have f3 := k (w := 0.281356) (by norm_num) e3
          have f4 := k (w := 0.1437135) (by norm_num) e4
          linarith
      _ = C.D.dt * (236 * (C.D.q + 1 : ℝ) ^ 4 / C.D.dt ^ 3) * ∑ n ∈ range C.D.N, nearSq C.S.mass C.D.q C.D.dt n F := by
          rw [mul_sum]; exact sum_congr rfl fun _ _ => by ring
      _ ≤ C.D.dt * (236 * (C.D.q + 1 : ℝ) ^ 4 / C.D.dt ^ 3) * (2 * (cd * E)) := by gcongr
      _ = _ := by field_simp; ring

include hc0 hc hE in
/-- The reported errors of two vectors are close if the energy of their difference is small. -/
theorem report_diff (hMe : C.Meas) {r s : ErrDict} (hr : Report C x r) (hs : Report C y s) :
    |r.l2T - s.l2T| ≤ √(24 * (C.D.q + 1) ^ 4 * cd / C.D.dt * E) ∧
    |r.linfU - s.linfU| ≤ √(24 * (C.D.q + 1) ^ 4 * cd / C.D.dt * E) ∧
    |r.linfUt - s.linfUt| ≤ √(472 * (C.D.q + 1) ^ 4 * cd / C.D.dt ^ 3 * E) ∧
    |r.l2l2Ut - s.l2l2Ut| ≤ √(472 * (C.D.q + 1) ^ 4 * cd / C.D.dt ^ 2 * E) :=
  report_diff_of hC hS hP ((slabSq_energy hC hS hP hc0 hc x y).trans (mul_le_mul_of_nonneg_left hE hc0)) hMe hr hs

end
end Dxss
