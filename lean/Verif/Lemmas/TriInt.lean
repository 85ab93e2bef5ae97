import Verif.Model.Tri
import Mathlib.MeasureTheory.Integral.Prod
import Mathlib.MeasureTheory.Integral.IntervalIntegral.FundThmCalculus
import Mathlib.Analysis.Calculus.Deriv.Comp
import Mathlib.Analysis.Calculus.Deriv.Prod

/-! # Integrals over triangles: order of integration, divergence theorem -/

namespace Dxss
open Finset MeasureTheory

theorem refInt_indicator (F : ℝ → ℝ → ℝ) :
    refInt F = ∫ s in Set.Ioc (0:ℝ) 1, ∫ t in Set.Ioc (0:ℝ) 1, if s + t ≤ 1 then F s t else 0 := by
  unfold refInt
  rw [intervalIntegral.integral_of_le zero_le_one]
  refine setIntegral_congr_fun measurableSet_Ioc fun s hs => ?_
  have h : (fun t => if s + t ≤ 1 then F s t else 0) = Set.indicator (Set.Iic (1 - s)) (F s) := by
    funext t
    simp only [Set.indicator, Set.mem_Iic]
    exact if_congr (by constructor <;> intro h <;> linarith) rfl rfl
  rw [intervalIntegral.integral_of_le (by linarith [hs.2]), h, setIntegral_indicator measurableSet_Iic]
  congr 2
  ext t
  simp only [Set.mem_Ioc, Set.mem_inter_iff, Set.mem_Iic]
  constructor
  · exact fun h => ⟨⟨h.1, by linarith [h.2, hs.1]⟩, h.2⟩
  · exact fun h => ⟨h.1.1, h.2⟩

/-- The order of integration does not matter. -/
theorem refInt_swap {F : ℝ → ℝ → ℝ} (hF : Continuous fun p : ℝ × ℝ => F p.1 p.2) : refInt F = refInt fun s t => F t s := by
  rw [refInt_indicator, refInt_indicator, integral_integral_swap]
  · simp only [add_comm]
  · rw [Measure.prod_restrict]
    have e : (Function.uncurry fun s t => if s + t ≤ 1 then F s t else 0)
        = Set.indicator {p : ℝ × ℝ | p.1 + p.2 ≤ 1} fun p => F p.1 p.2 := by
      funext p; rfl
    rw [e]
    refine IntegrableOn.indicator ?_ (isClosed_le (by fun_prop) (by fun_prop)).measurableSet
    exact (hF.continuousOn.integrableOn_compact (isCompact_Icc.prod isCompact_Icc)).mono_set
      (Set.prod_mono Set.Ioc_subset_Icc_self Set.Ioc_subset_Icc_self)

/-- Reflection of the inner variable. -/
theorem refInt_reflect (F : ℝ → ℝ → ℝ) : refInt F = refInt fun s t => F s (1 - s - t) := by
  unfold refInt
  refine intervalIntegral.integral_congr fun s _ => ?_
  dsimp only
  rw [intervalIntegral.integral_comp_sub_left (fun t => F s t) (1 - s), sub_self, sub_zero]

/-- On the diagonal edge. -/
theorem seg_reverse (g : ℝ → ℝ) : ∫ s in (0:ℝ)..1, g (1 - s) = ∫ s in (0:ℝ)..1, g s := by
  rw [intervalIntegral.integral_comp_sub_left g 1, sub_self, sub_zero]

theorem refInt_dt {F F' : ℝ → ℝ → ℝ} (hF' : Continuous fun p : ℝ × ℝ => F' p.1 p.2) (hd : ∀ s t, HasDerivAt (F s) (F' s t) t)
    (hF : Continuous fun p : ℝ × ℝ => F p.1 p.2) :
    refInt F' = (∫ s in (0:ℝ)..1, F s (1 - s)) - ∫ s in (0:ℝ)..1, F s 0 := by
  unfold refInt
  rw [← intervalIntegral.integral_sub]
  · refine intervalIntegral.integral_congr fun s _ => ?_
    exact intervalIntegral.integral_eq_sub_of_hasDerivAt (fun t _ => hd s t)
      ((hF'.comp (Continuous.prodMk_right s)).intervalIntegrable _ _)
  · exact Continuous.intervalIntegrable (hF.comp (by fun_prop : Continuous fun s : ℝ => (s, 1 - s))) _ _
  · exact Continuous.intervalIntegrable (hF.comp (by fun_prop : Continuous fun s : ℝ => (s, (0:ℝ)))) _ _

theorem refInt_ds {F F' : ℝ → ℝ → ℝ} (hF' : Continuous fun p : ℝ × ℝ => F' p.1 p.2) (hd : ∀ s t, HasDerivAt (fun s => F s t) (F' s t) s)
    (hF : Continuous fun p : ℝ × ℝ => F p.1 p.2) :
    refInt F' = (∫ s in (0:ℝ)..1, F s (1 - s)) - ∫ t in (0:ℝ)..1, F 0 t := by
  rw [refInt_swap hF', refInt_dt (F := fun t s => F s t) (F' := fun t s => F' s t) (hF'.comp continuous_swap) (fun t s => hd s t) (hF.comp continuous_swap),
    ← seg_reverse fun s => F s (1 - s)]
  simp only [sub_sub_cancel]

namespace AnaD

theorem fderiv_apply (f : AnaD 2) (x w : Fin 2 → ℝ) : fderiv ℝ f.1 x w = w 0 * (pd 0 f).1 x + w 1 * (pd 1 f).1 x := by
  have : w = w 0 • (Pi.single 0 1 : Fin 2 → ℝ) + w 1 • (Pi.single 1 1 : Fin 2 → ℝ) := by
    funext i; fin_cases i <;> simp
  conv_lhs => rw [this]
  rw [map_add, map_smul, map_smul]
  rfl

theorem line_has (f : AnaD 2) (P w : Fin 2 → ℝ) (s : ℝ) :
    HasDerivAt (fun s => f.1 (fun c => P c + s * w c)) (w 0 * (pd 0 f).1 (fun c => P c + s * w c) + w 1 * (pd 1 f).1 (fun c => P c + s * w c)) s := by
  have h1 : HasDerivAt (fun s : ℝ => (fun c => P c + s * w c : Fin 2 → ℝ)) w s := by
    rw [hasDerivAt_pi]
    intro c
    simpa using ((hasDerivAt_id s).mul_const (w c)).const_add (P c)
  have := (diff f (fun c => P c + s * w c)).hasFDerivAt.comp_hasDerivAt s h1
  rw [fderiv_apply] at this
  exact this

theorem triInt_eq (A B C : Fin 2 → ℝ) (f : AnaD 2) : triInt A B C f = det2 A B C * refInt fun s t => f.1 (refPt A B C s t) := rfl
theorem segInt_eq (A B : Fin 2 → ℝ) (f : AnaD 2) : segInt A B f = segLen A B * ∫ s in (0:ℝ)..1, f.1 (segPt A B s) := rfl

/-- The integral over an edge, with the edge as parameter interval. -/
noncomputable def segMean (A B : Fin 2 → ℝ) (f : AnaD 2) : ℝ := ∫ s in (0:ℝ)..1, f.1 (segPt A B s)

section
variable (A B C : Fin 2 → ℝ) (f : AnaD 2)

theorem ref_ds : refInt (fun s t => (B 0 - A 0) * (pd 0 f).1 (refPt A B C s t) + (B 1 - A 1) * (pd 1 f).1 (refPt A B C s t))
    = segMean B C f - segMean C A f := by
  have e1 : segMean B C f = ∫ s in (0:ℝ)..1, f.1 (refPt A B C s (1 - s)) := by
    rw [segMean, ← seg_reverse]
    refine intervalIntegral.integral_congr fun s _ => congrArg f.1 (funext fun c => ?_)
    simp only [segPt, refPt]; ring
  have e2 : segMean C A f = ∫ t in (0:ℝ)..1, f.1 (refPt A B C 0 t) := by
    rw [segMean, ← seg_reverse]
    refine intervalIntegral.integral_congr fun s _ => congrArg f.1 (funext fun c => ?_)
    simp only [segPt, refPt]; ring
  rw [e1, e2]
  refine refInt_ds (F := fun s t => f.1 (refPt A B C s t)) ?_ (fun s t => ?_) (ref_cont A B C f)
  · exact (continuous_const.mul (ref_cont A B C (pd 0 f))).add (continuous_const.mul (ref_cont A B C (pd 1 f)))
  · have := line_has f (fun c => A c + t * (C c - A c)) (fun c => B c - A c) s
    have e : ∀ s, (fun c => A c + t * (C c - A c) + s * (B c - A c)) = refPt A B C s t := fun s => funext fun c => by
      simp only [refPt]; ring
    simp only [e] at this
    exact this

theorem ref_dt : refInt (fun s t => (C 0 - A 0) * (pd 0 f).1 (refPt A B C s t) + (C 1 - A 1) * (pd 1 f).1 (refPt A B C s t))
    = segMean B C f - segMean A B f := by
  have e1 : segMean B C f = ∫ s in (0:ℝ)..1, f.1 (refPt A B C s (1 - s)) := by
    rw [segMean, ← seg_reverse]
    refine intervalIntegral.integral_congr fun s _ => congrArg f.1 (funext fun c => ?_)
    simp only [segPt, refPt]; ring
  have e2 : segMean A B f = ∫ s in (0:ℝ)..1, f.1 (refPt A B C s 0) := by
    refine intervalIntegral.integral_congr fun s _ => congrArg f.1 (funext fun c => ?_)
    simp only [segPt, refPt]; ring
  rw [e1, e2]
  refine refInt_dt (F := fun s t => f.1 (refPt A B C s t)) ?_ (fun s t => ?_) (ref_cont A B C f)
  · exact (continuous_const.mul (ref_cont A B C (pd 0 f))).add (continuous_const.mul (ref_cont A B C (pd 1 f)))
  · exact line_has f (fun c => A c + s * (B c - A c)) (fun c => C c - A c) t

theorem ref_comb (a b : ℝ) (g h : AnaD 2) : refInt (fun s t => a * g.1 (refPt A B C s t) + b * h.1 (refPt A B C s t))
    = a * refInt (fun s t => g.1 (refPt A B C s t)) + b * refInt fun s t => h.1 (refPt A B C s t) := by
  rw [refInt_add (continuous_const.mul (ref_cont A B C g)) (continuous_const.mul (ref_cont A B C h)), refInt_smul, refInt_smul]

/-- The divergence theorem on a triangle, one component. -/
theorem div_x : triInt A B C (pd 0 f)
    = (B 1 - A 1) * segMean A B f + (C 1 - B 1) * segMean B C f + (A 1 - C 1) * segMean C A f := by
  have h1 := ref_ds A B C f
  have h2 := ref_dt A B C f
  rw [ref_comb] at h1 h2
  rw [triInt_eq, det2]
  linear_combination (C 1 - A 1) * h1 - (B 1 - A 1) * h2

theorem div_y : triInt A B C (pd 1 f)
    = -(B 0 - A 0) * segMean A B f - (C 0 - B 0) * segMean B C f - (A 0 - C 0) * segMean C A f := by
  have h1 := ref_ds A B C f
  have h2 := ref_dt A B C f
  rw [ref_comb] at h1 h2
  rw [triInt_eq, det2]
  linear_combination -(C 0 - A 0) * h1 + (B 0 - A 0) * h2

/-- The integral over a triangle does not depend on the vertex taken as origin. -/
theorem triInt_rot : triInt B C A f = triInt A B C f := by
  rw [triInt_eq, triInt_eq, show det2 B C A = det2 A B C by unfold det2; ring]
  congr 1
  rw [refInt_swap (F := fun s t => f.1 (refPt A B C s t)) (ref_cont A B C f), refInt_reflect fun s t => f.1 (refPt A B C t s)]
  congr 1
  funext s t
  refine congrArg f.1 (funext fun c => ?_)
  simp only [refPt]; ring

end

/-! ### Signs -/

theorem refInt_nonneg {F : ℝ → ℝ → ℝ} (h : ∀ s t, 0 ≤ s → 0 ≤ t → s + t ≤ 1 → 0 ≤ F s t) : 0 ≤ refInt F := by
  refine intervalIntegral.integral_nonneg zero_le_one fun s hs => intervalIntegral.integral_nonneg (by linarith [hs.2]) fun t ht => ?_
  exact h s t hs.1 ht.1 (by linarith [ht.2])

theorem refInt_mono {F G : ℝ → ℝ → ℝ} (hF : Continuous fun p : ℝ × ℝ => F p.1 p.2) (hG : Continuous fun p : ℝ × ℝ => G p.1 p.2)
    (h : ∀ s t, 0 ≤ s → 0 ≤ t → s + t ≤ 1 → F s t ≤ G s t) : refInt F ≤ refInt G := by
  have := refInt_nonneg (F := fun s t => G s t + -1 * F s t) fun s t hs ht hst => by linarith [h s t hs ht hst]
  rw [refInt_add hG (continuous_const.mul hF), refInt_smul] at this
  linarith

variable {A B C : Fin 2 → ℝ}

theorem triInt_nonneg (hd : 0 < det2 A B C) {f : AnaD 2} (h : ∀ s t, 0 ≤ s → 0 ≤ t → s + t ≤ 1 → 0 ≤ f.1 (refPt A B C s t)) :
    0 ≤ triInt A B C f := mul_nonneg hd.le (refInt_nonneg h)

theorem triInt_mono (hd : 0 < det2 A B C) {f g : AnaD 2} (h : ∀ s t, 0 ≤ s → 0 ≤ t → s + t ≤ 1 → f.1 (refPt A B C s t) ≤ g.1 (refPt A B C s t)) :
    triInt A B C f ≤ triInt A B C g := mul_le_mul_of_nonneg_left (refInt_mono (ref_cont A B C f) (ref_cont A B C g) h) hd.le

theorem triL2_self (hd : 0 < det2 A B C) (f : AnaD 2) : 0 ≤ triL2 A B C f f :=
  triInt_nonneg hd fun _ _ _ _ _ => mul_self_nonneg _

theorem segInt_nonneg {f : AnaD 2} (h : ∀ s, 0 ≤ s → s ≤ 1 → 0 ≤ f.1 (segPt A B s)) : 0 ≤ segInt A B f :=
  mul_nonneg (Real.sqrt_nonneg _) (intervalIntegral.integral_nonneg zero_le_one fun s hs => h s hs.1 hs.2)

theorem segInt_mono {f g : AnaD 2} (h : ∀ s, 0 ≤ s → s ≤ 1 → f.1 (segPt A B s) ≤ g.1 (segPt A B s)) : segInt A B f ≤ segInt A B g := by
  have := segInt_nonneg (f := g - f) (A := A) (B := B) fun s h0 h1 => sub_nonneg.2 (h s h0 h1)
  rw [map_sub] at this
  linarith

theorem segL2_self (f : AnaD 2) : 0 ≤ segL2 A B f f := segInt_nonneg fun _ _ _ => mul_self_nonneg _

theorem segInt_congr {f g : AnaD 2} (h : ∀ s, 0 ≤ s → s ≤ 1 → f.1 (segPt A B s) = g.1 (segPt A B s)) : segInt A B f = segInt A B g :=
  le_antisymm (segInt_mono fun s a b => (h s a b).le) (segInt_mono fun s a b => (h s a b).ge)

/-- A function whose square has zero integral over a triangle vanishes. -/
theorem triL2_zero (hd : 0 < det2 A B C) {f : AnaD 2} (h : triL2 A B C f f = 0) : f = 0 := by
  have h1 : refInt (fun s t => f.1 (refPt A B C s t) * f.1 (refPt A B C s t)) = 0 := by
    rcases mul_eq_zero.1 (show det2 A B C * refInt (fun s t => f.1 (refPt A B C s t) * f.1 (refPt A B C s t)) = 0 from h) with h | h
    · exact absurd h hd.ne'
    · exact h
  have hc : Continuous fun p : ℝ × ℝ => f.1 (refPt A B C p.1 p.2) * f.1 (refPt A B C p.1 p.2) := (ref_cont A B C f).mul (ref_cont A B C f)
  have hz : ∀ s t, 0 < s → 0 < t → s + t < 1 → f.1 (refPt A B C s t) = 0 := by
    intro s t hs ht hst
    have h2 : (∫ t in (0:ℝ)..(1 - s), f.1 (refPt A B C s t) * f.1 (refPt A B C s t)) = 0 := by
      by_contra hne
      have hp : 0 < ∫ t in (0:ℝ)..(1 - s), f.1 (refPt A B C s t) * f.1 (refPt A B C s t) :=
        lt_of_le_of_ne (intervalIntegral.integral_nonneg (by linarith) fun t _ => mul_self_nonneg _) (Ne.symm hne)
      refine (intervalIntegral.integral_pos zero_lt_one (refInner_cont hc).continuousOn (fun s hs => ?_) ⟨s, ⟨hs.le, by linarith⟩, hp⟩).ne' h1
      exact intervalIntegral.integral_nonneg (by linarith [hs.2]) fun t _ => mul_self_nonneg _
    by_contra hne
    refine (intervalIntegral.integral_pos (by linarith : (0:ℝ) < 1 - s) (hc.comp (Continuous.prodMk_right s)).continuousOn
      (fun t _ => mul_self_nonneg _) ⟨t, ⟨ht.le, by linarith⟩, mul_self_pos.2 hne⟩).ne' h2
  set P := refPt A B C (1 / 3) (1 / 3) with hP
  have hev : f.1 =ᶠ[nhds P] 0 := by
    let S : (Fin 2 → ℝ) → ℝ := fun x => ((x 0 - A 0) * (C 1 - A 1) - (x 1 - A 1) * (C 0 - A 0)) / det2 A B C
    let T : (Fin 2 → ℝ) → ℝ := fun x => ((B 0 - A 0) * (x 1 - A 1) - (B 1 - A 1) * (x 0 - A 0)) / det2 A B C
    have hS : Continuous S := by fun_prop
    have hT : Continuous T := by fun_prop
    have hinv : ∀ x, refPt A B C (S x) (T x) = x := by
      intro x
      funext c
      simp only [refPt, S, T]
      fin_cases c
      · simp only [Fin.zero_eta]
        field_simp
        unfold det2; ring
      · simp only [Fin.mk_one]
        field_simp
        unfold det2; ring
    have hSP : S P = 1 / 3 := by
      simp only [S, hP, refPt]
      field_simp
      unfold det2; ring
    have hTP : T P = 1 / 3 := by
      simp only [T, hP, refPt]
      field_simp
      unfold det2; ring
    have e1 := hS.continuousAt.eventually (lt_mem_nhds (a := 0) (b := S P) (by rw [hSP]; norm_num))
    have e2 := hT.continuousAt.eventually (lt_mem_nhds (a := 0) (b := T P) (by rw [hTP]; norm_num))
    have e3 : ∀ᶠ x in nhds P, S x + T x < 1 :=
      (isOpen_lt (hS.add hT) continuous_const).mem_nhds (show S P + T P < 1 by rw [hSP, hTP]; norm_num)
    filter_upwards [e1, e2, e3] with x h1 h2 h3
    have := hz _ _ h1 h2 h3
    rw [hinv] at this
    exact this
  exact Subtype.ext (funext fun x => congrFun ((ana f).eq_of_eventuallyEq (analyticOnNhd_const (v := (0:ℝ))) hev) x)

end AnaD
end Dxss
