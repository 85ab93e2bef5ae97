import Mathlib.Analysis.Calculus.MeanValue
import Mathlib.Analysis.Calculus.Deriv.MeanValue
import Mathlib.Analysis.Calculus.Deriv.Pow
import Mathlib.Tactic.Linarith
import Mathlib.Tactic.FieldSimp

/-!
# Linear interpolation on an interval, with sharp constants
-/

namespace Dxss

section
variable {f f' f'' : ℝ → ℝ} {M : ℝ} (h1 : ∀ x, HasDerivAt f (f' x) x) (h2 : ∀ x, HasDerivAt f' (f'' x) x) (hM : ∀ x, |f'' x| ≤ M)
include h2 hM

theorem deriv_lipschitz (x y : ℝ) : |f' y - f' x| ≤ M * |y - x| := by
  have := convex_univ.norm_image_sub_le_of_norm_hasDerivWithin_le (f := f') (f' := f'') (C := M) (x := x) (y := y)
    (fun x _ => (h2 x).hasDerivWithinAt) (fun x _ => hM x) trivial trivial
  simpa using this

include h1

theorem taylor_right {x y : ℝ} (hxy : x ≤ y) : |f y - f x - f' x * (y - x)| ≤ M / 2 * (y - x) ^ 2 := by
  have mono : ∀ σ : ℝ, |σ| = 1 → σ * (f y - f x - f' x * (y - x)) ≤ M / 2 * (y - x) ^ 2 := by
    intro σ hσ
    let g : ℝ → ℝ := fun z => M / 2 * (z - x) ^ 2 - σ * (f z - f x - f' x * (z - x))
    have hg : ∀ z, HasDerivAt g (M * (z - x) - σ * (f' z - f' x)) z := by
      intro z
      have a := (((hasDerivAt_id z).sub_const x).pow 2).const_mul (M / 2)
      have b := ((((h1 z).sub_const (f x)).sub (((hasDerivAt_id z).sub_const x).const_mul (f' x)))).const_mul σ
      refine (a.sub b).congr_deriv ?_
      simp only [id, Nat.cast_ofNat]
      ring
    have hm : MonotoneOn g (Set.Icc x y) := by
      refine monotoneOn_of_deriv_nonneg (convex_Icc x y) (fun z _ => (hg z).continuousAt.continuousWithinAt)
        (fun z _ => (hg z).differentiableAt.differentiableWithinAt) fun z hz => ?_
      rw [interior_Icc] at hz
      rw [(hg z).deriv]
      have h := deriv_lipschitz h2 hM x z
      rw [abs_of_pos (sub_pos.2 hz.1)] at h
      have : σ * (f' z - f' x) ≤ |f' z - f' x| := by
        calc _ ≤ |σ * (f' z - f' x)| := le_abs_self _
          _ = _ := by rw [abs_mul, hσ, one_mul]
      linarith
    have := hm (Set.left_mem_Icc.2 hxy) (Set.right_mem_Icc.2 hxy) hxy
    simp only [g, sub_self] at this
    norm_num at this
    linarith
  rw [abs_le]
  have a := mono 1 (by norm_num)
  have b := mono (-1) (by norm_num)
  constructor <;> linarith

omit h1 h2 hM in
theorem neg_chain (h : ∀ x, HasDerivAt f (f' x) x) (x : ℝ) : HasDerivAt (fun x => f (-x)) (-f' (-x)) x := by
  have := (h (-x)).comp x (hasDerivAt_neg x)
  exact this.congr_deriv (by ring)

theorem taylor_two (x y : ℝ) : |f y - f x - f' x * (y - x)| ≤ M / 2 * (y - x) ^ 2 := by
  rcases le_total x y with h | h
  · exact taylor_right h1 h2 hM h
  · have := taylor_right (f := fun x => f (-x)) (f' := fun x => -f' (-x)) (f'' := fun x => f'' (-x)) (M := M) (neg_chain h1)
      (fun x => (neg_chain h2 x).neg.congr_deriv (neg_neg _)) (fun x => hM _) (x := -x) (y := -y) (by linarith)
    simp only [neg_neg] at this
    convert this using 2 <;> ring

/-- Value and slope of the linear interpolant. -/
theorem lin_interp {a b t : ℝ} (hab : a < b) (ht : t ∈ Set.Icc a b) :
    |f t - ((b - t) / (b - a) * f a + (t - a) / (b - a) * f b)| ≤ M * (b - a) ^ 2 / 8 ∧
    |f' t - (f b - f a) / (b - a)| ≤ M * (b - a) / 2 := by
  have hM0 : 0 ≤ M := (abs_nonneg _).trans (hM 0)
  have ha := abs_le.1 (taylor_two h1 h2 hM t a)
  have hb := abs_le.1 (taylor_two h1 h2 hM t b)
  have hd : 0 < b - a := sub_pos.2 hab
  set R0 := f a - f t - f' t * (a - t) with hR0
  set R1 := f b - f t - f' t * (b - t) with hR1
  have e1 : f t - ((b - t) / (b - a) * f a + (t - a) / (b - a) * f b) = -((b - t) * R0 + (t - a) * R1) / (b - a) := by
    rw [hR0, hR1]; field_simp; ring
  have e2 : f' t - (f b - f a) / (b - a) = (R0 - R1) / (b - a) := by
    rw [hR0, hR1]; field_simp; ring
  have p1 : 0 ≤ b - t := sub_nonneg.2 ht.2
  have p0 : 0 ≤ t - a := sub_nonneg.2 ht.1
  constructor
  · rw [e1, abs_div, abs_of_pos hd, div_le_iff₀ hd, abs_neg, abs_le]
    have q1 := mul_le_mul_of_nonneg_left ha.1 p1
    have q2 := mul_le_mul_of_nonneg_left ha.2 p1
    have q3 := mul_le_mul_of_nonneg_left hb.1 p0
    have q4 := mul_le_mul_of_nonneg_left hb.2 p0
    have e : (b - t) * (M / 2 * (a - t) ^ 2) + (t - a) * (M / 2 * (b - t) ^ 2) = M / 2 * (b - a) * ((t - a) * (b - t)) := by ring
    have q : (t - a) * (b - t) ≤ (b - a) ^ 2 / 4 := by nlinarith [sq_nonneg ((t - a) - (b - t))]
    have := mul_le_mul_of_nonneg_left q (show 0 ≤ M / 2 * (b - a) by positivity)
    constructor <;> linarith
  · rw [e2, abs_div, abs_of_pos hd, div_le_iff₀ hd, abs_le]
    have q : (a - t) ^ 2 + (b - t) ^ 2 ≤ (b - a) ^ 2 := by nlinarith [mul_nonneg p0 p1]
    have := mul_le_mul_of_nonneg_left q (show 0 ≤ M / 2 by positivity)
    constructor <;> linarith

end

end Dxss
