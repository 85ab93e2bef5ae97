import Verif.Lemmas.TriInt
import Mathlib.MeasureTheory.Function.Jacobian
import Mathlib.MeasureTheory.Measure.Lebesgue.EqHaar
import Mathlib.MeasureTheory.Integral.Prod
import Mathlib.Analysis.InnerProductSpace.PiL2
import Mathlib.Analysis.Normed.Module.Convex

/-! # Integrals over triangles are Lebesgue integrals -/

namespace Dxss
open Finset MeasureTheory

/-- The reference triangle. -/
def refTri : Set (Fin 2 → ℝ) := {p | 0 ≤ p 0 ∧ 0 ≤ p 1 ∧ p 0 + p 1 ≤ 1}

/-- The closed triangle with the given vertices. -/
def hull (A B C : Fin 2 → ℝ) : Set (Fin 2 → ℝ) := convexHull ℝ {A, B, C}

theorem refTri_closed : IsClosed refTri :=
  (isClosed_le continuous_const (continuous_apply 0)).inter
    ((isClosed_le continuous_const (continuous_apply 1)).inter (isClosed_le ((continuous_apply 0).add (continuous_apply 1)) continuous_const))

theorem refTri_meas : MeasurableSet refTri := refTri_closed.measurableSet

theorem hull_eq (A B C : Fin 2 → ℝ) : hull A B C = (fun p : Fin 2 → ℝ => refPt A B C (p 0) (p 1)) '' refTri := by
  apply Set.Subset.antisymm
  · refine convexHull_min ?_ ?_
    · rintro x (rfl | rfl | rfl)
      · exact ⟨![0, 0], by simp [refTri], by funext c; simp [refPt]⟩
      · exact ⟨![1, 0], by simp [refTri], by funext c; simp [refPt]⟩
      · exact ⟨![0, 1], by simp [refTri], by funext c; simp [refPt]⟩
    · rintro _ ⟨p, ⟨p0, p1, p2⟩, rfl⟩ _ ⟨q, ⟨q0, q1, q2⟩, rfl⟩ a b ha hb hab
      refine ⟨a • p + b • q, ⟨?_, ?_, ?_⟩, ?_⟩
      · simp only [Pi.add_apply, Pi.smul_apply, smul_eq_mul]; positivity
      · simp only [Pi.add_apply, Pi.smul_apply, smul_eq_mul]; positivity
      · simp only [Pi.add_apply, Pi.smul_apply, smul_eq_mul]
        nlinarith [mul_le_mul_of_nonneg_left p2 ha, mul_le_mul_of_nonneg_left q2 hb]
      · funext c
        simp only [Pi.add_apply, Pi.smul_apply, smul_eq_mul, refPt]
        have : b = 1 - a := by linarith
        subst this; ring
  · rintro _ ⟨p, ⟨p0, p1, p2⟩, rfl⟩
    have hA : A ∈ hull A B C := subset_convexHull ℝ _ (by simp)
    have hB : B ∈ hull A B C := subset_convexHull ℝ _ (by simp)
    have hC : C ∈ hull A B C := subset_convexHull ℝ _ (by simp)
    have h := (convex_convexHull ℝ {A, B, C}).sum_mem (t := Finset.univ) (w := ![1 - p 0 - p 1, p 0, p 1]) (z := ![A, B, C])
      (by intro i _; fin_cases i
          · simp; linarith
          · exact p0
          · exact p1)
      (by simp [Fin.sum_univ_three]; ring)
      (by intro i _; fin_cases i
          · exact hA
          · exact hB
          · exact hC)
    have e : refPt A B C (p 0) (p 1) = ∑ i, (![1 - p 0 - p 1, p 0, p 1] : Fin 3 → ℝ) i • (![A, B, C] : Fin 3 → Fin 2 → ℝ) i := by
      funext c
      simp only [Fin.sum_univ_three, refPt, Pi.add_apply, Pi.smul_apply, smul_eq_mul, Matrix.cons_val_zero, Matrix.cons_val_one,
        Matrix.cons_val]
      ring
    change refPt A B C (p 0) (p 1) ∈ hull A B C
    rw [e]
    exact h

theorem refTri_compact : IsCompact refTri := by
  refine IsCompact.of_isClosed_subset (isCompact_Icc (a := (0 : Fin 2 → ℝ)) (b := 1)) refTri_closed ?_
  rintro p ⟨h0, h1, h2⟩
  constructor <;> intro c <;> fin_cases c <;> simp <;> linarith

theorem hull_meas (A B C : Fin 2 → ℝ) : MeasurableSet (hull A B C) := by
  rw [hull_eq]
  exact (refTri_compact.image ((refPt_cont A B C).comp (by fun_prop : Continuous fun p : Fin 2 → ℝ => (p 0, p 1)))).isClosed.measurableSet

/-- Integrals over the reference triangle, as iterated integrals. -/
theorem refTri_integral {G : (Fin 2 → ℝ) → ℝ} (hG : Continuous G) : ∫ p in refTri, G p = refInt fun s t => G ![s, t] := by
  set R : Set (ℝ × ℝ) := {z | 0 ≤ z.1 ∧ 0 ≤ z.2 ∧ z.1 + z.2 ≤ 1} with hR
  have hRc : IsClosed R := (isClosed_le continuous_const continuous_fst).inter
    ((isClosed_le continuous_const continuous_snd).inter (isClosed_le (continuous_fst.add continuous_snd) continuous_const))
  have hRk : IsCompact R := by
    refine IsCompact.of_isClosed_subset (isCompact_Icc (a := ((0:ℝ), (0:ℝ))) (b := (1, 1))) hRc ?_
    rintro ⟨x, y⟩ ⟨h0, h1, h2⟩
    simp only at h0 h1 h2
    exact ⟨⟨h0, h1⟩, ⟨by simp only; linarith, by simp only; linarith⟩⟩
  have hg : Continuous fun z : ℝ × ℝ => G ![z.1, z.2] := hG.comp (by fun_prop)
  have e1 : ∫ p in refTri, G p = ∫ z in R, G ![z.1, z.2] := by
    have h := (volume_preserving_finTwoArrow ℝ).symm.setIntegral_preimage_emb (MeasurableEquiv.measurableEmbedding _) G refTri
    rw [← h]
    rfl
  have hi : Integrable (R.indicator fun z : ℝ × ℝ => G ![z.1, z.2]) (volume.prod volume) :=
    (integrable_indicator_iff hRc.measurableSet).2 (hg.continuousOn.integrableOn_compact hRk)
  have e2 : ∫ z in R, G ![z.1, z.2] = ∫ s, ∫ t, R.indicator (fun z : ℝ × ℝ => G ![z.1, z.2]) (s, t) := by
    rw [← integral_indicator hRc.measurableSet]
    exact integral_prod _ hi
  have e3 : ∀ s, ∫ t, R.indicator (fun z : ℝ × ℝ => G ![z.1, z.2]) (s, t)
      = (Set.Icc (0:ℝ) 1).indicator (fun s => ∫ t in (0:ℝ)..(1 - s), G ![s, t]) s := by
    intro s
    by_cases hs : s ∈ Set.Icc (0:ℝ) 1
    · rw [Set.indicator_of_mem hs, intervalIntegral.integral_of_le (by linarith [hs.2]), ← integral_Icc_eq_integral_Ioc,
        ← integral_indicator measurableSet_Icc]
      refine integral_congr_ae (Filter.Eventually.of_forall fun t => ?_)
      simp only [Set.indicator_apply]
      refine if_congr ?_ rfl rfl
      simp only [hR, Set.mem_ofPred_eq, Set.mem_Icc]
      constructor
      · rintro ⟨-, h1, h2⟩; exact ⟨h1, by linarith⟩
      · rintro ⟨h1, h2⟩; exact ⟨hs.1, h1, by linarith⟩
    · rw [Set.indicator_of_notMem hs]
      refine integral_eq_zero_of_ae (Filter.Eventually.of_forall fun t => ?_)
      refine Set.indicator_of_notMem ?_ _
      rintro ⟨h0, h1, h2⟩
      simp only at h0 h1 h2
      exact hs ⟨h0, by linarith⟩
  rw [e1, e2]
  simp only [e3]
  rw [integral_indicator measurableSet_Icc, integral_Icc_eq_integral_Ioc, ← intervalIntegral.integral_of_le zero_le_one]
  rfl

/-- The linear part of the map from the reference triangle. -/
noncomputable def refLin (A B C : Fin 2 → ℝ) : (Fin 2 → ℝ) →L[ℝ] (Fin 2 → ℝ) :=
  LinearMap.toContinuousLinearMap (Matrix.toLin' !![B 0 - A 0, C 0 - A 0; B 1 - A 1, C 1 - A 1])

theorem refLin_det (A B C : Fin 2 → ℝ) : (refLin A B C).det = det2 A B C := by
  rw [refLin, LinearMap.det_toContinuousLinearMap, LinearMap.det_toLin', Matrix.det_fin_two_of, det2]
  ring

theorem refPt_eq (A B C p : Fin 2 → ℝ) : refPt A B C (p 0) (p 1) = refLin A B C p + A := by
  funext c
  simp only [refPt, refLin, Pi.add_apply, LinearMap.coe_toContinuousLinearMap', Matrix.toLin'_apply]
  fin_cases c <;> simp [Matrix.mulVec, dotProduct, Fin.sum_univ_two] <;> ring

theorem refPt_inj {A B C : Fin 2 → ℝ} (h : 0 < det2 A B C) {p q : Fin 2 → ℝ}
    (e : refPt A B C (p 0) (p 1) = refPt A B C (q 0) (q 1)) : p = q := by
  have e0 := congrFun e 0; have e1 := congrFun e 1
  simp only [refPt] at e0 e1
  have h0 : det2 A B C * (p 0 - q 0) = 0 := by
    simp only [det2]
    linear_combination (C 1 - A 1) * e0 - (C 0 - A 0) * e1
  have h1 : det2 A B C * (p 1 - q 1) = 0 := by
    simp only [det2]
    linear_combination (B 0 - A 0) * e1 - (B 1 - A 1) * e0
  funext c
  fin_cases c
  · exact sub_eq_zero.1 ((mul_eq_zero.1 h0).resolve_left h.ne')
  · exact sub_eq_zero.1 ((mul_eq_zero.1 h1).resolve_left h.ne')

/-- The integrals the model takes over triangles are Lebesgue integrals. -/
theorem AnaD.triInt_volume {A B C : Fin 2 → ℝ} (h : 0 < det2 A B C) (f : AnaD 2) :
    AnaD.triInt A B C f = ∫ x in hull A B C, f.1 x := by
  have hd : ∀ p ∈ refTri, HasFDerivWithinAt (fun p : Fin 2 → ℝ => refPt A B C (p 0) (p 1)) (refLin A B C) refTri p := by
    intro p _
    have : (fun p : Fin 2 → ℝ => refPt A B C (p 0) (p 1)) = fun p => refLin A B C p + A := funext fun p => refPt_eq A B C p
    rw [this]
    exact ((refLin A B C).hasFDerivWithinAt).add_const A
  rw [hull_eq, integral_image_eq_integral_abs_det_fderiv_smul volume refTri_meas hd (fun p _ q _ e => refPt_inj h e)]
  rw [refLin_det, abs_of_pos h]
  simp only [smul_eq_mul]
  rw [integral_const_mul, AnaD.triInt_eq]
  rw [refTri_integral (G := fun p => f.1 (refPt A B C (p 0) (p 1))) ((AnaD.ref_cont A B C f).comp (by fun_prop : Continuous fun p : Fin 2 → ℝ => (p 0, p 1)))]
  rfl

theorem segLen_dist (A B : Fin 2 → ℝ) : segLen A B = dist (WithLp.toLp 2 A) (WithLp.toLp 2 B) := by
  rw [EuclideanSpace.dist_eq, segLen, Fin.sum_univ_two]
  simp only [Real.dist_eq, sq_abs]
  congr 1; ring

theorem segLen_symm (A B : Fin 2 → ℝ) : segLen A B = segLen B A := by rw [segLen_dist, dist_comm, segLen_dist]

/-- Points of a triangle are at most as far apart as two of its vertices. -/
theorem hull_dist {A B C x y : Fin 2 → ℝ} (hx : x ∈ hull A B C) (hy : y ∈ hull A B C) :
    segLen x y ≤ max (max (segLen A B) (segLen B C)) (segLen C A) := by
  let L := (WithLp.linearEquiv 2 ℝ (Fin 2 → ℝ)).symm.toLinearMap
  have hm : ∀ z ∈ hull A B C, WithLp.toLp 2 z ∈ convexHull ℝ (L '' {A, B, C}) := by
    intro z hz
    rw [← LinearMap.image_convexHull]
    exact ⟨z, hz, rfl⟩
  obtain ⟨_, ⟨a, ha, rfl⟩, _, ⟨b, hb, rfl⟩, h⟩ := convexHull_exists_dist_ge2 (hm x hx) (hm y hy)
  rw [segLen_dist]
  refine h.trans ?_
  change dist (WithLp.toLp 2 a) (WithLp.toLp 2 b) ≤ _
  rw [← segLen_dist]
  have h0 : ∀ z, segLen z z = 0 := fun z => by rw [segLen_dist, dist_self]
  have hp : ∀ z w, 0 ≤ segLen z w := fun z w => Real.sqrt_nonneg _
  rcases ha with rfl | rfl | rfl <;> rcases hb with rfl | rfl | rfl <;> simp only [h0, hp, le_max_iff, le_refl, true_or, or_true, segLen_symm]
end Dxss
