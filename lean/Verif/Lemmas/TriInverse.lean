import Verif.Lemmas.TriGreen
import Mathlib.Analysis.SpecialFunctions.Integrals.Basic
import Mathlib.Algebra.Polynomial.Eval.Degree
import Mathlib.Algebra.Polynomial.BigOperators

/-! # Values of cubic polynomials on the edges of a triangle -/

namespace Dxss
open Finset MeasureTheory

theorem cubic_int (a b c d : ℝ) : ∫ s in (0:ℝ)..1, (1 - s) * (a + b * s + c * s ^ 2 + d * s ^ 3) ^ 2
    = a ^ 2 / 2 + b ^ 2 / 12 + c ^ 2 / 30 + d ^ 2 / 56 + a * b / 3 + a * c / 6 + a * d / 10 + b * c / 10 + b * d / 15 + c * d / 21 := by
  have h : ∀ s : ℝ, HasDerivAt (fun s : ℝ => a ^ 2 * s + (2 * a * b - a ^ 2) * s ^ 2 / 2 + (b ^ 2 + 2 * a * c - 2 * a * b) * s ^ 3 / 3
      + (2 * a * d + 2 * b * c - b ^ 2 - 2 * a * c) * s ^ 4 / 4 + (c ^ 2 + 2 * b * d - 2 * a * d - 2 * b * c) * s ^ 5 / 5
      + (2 * c * d - c ^ 2 - 2 * b * d) * s ^ 6 / 6 + (d ^ 2 - 2 * c * d) * s ^ 7 / 7 - d ^ 2 * s ^ 8 / 8)
      ((1 - s) * (a + b * s + c * s ^ 2 + d * s ^ 3) ^ 2) s := by
    intro s
    have p : ∀ n : ℕ, HasDerivAt (fun s : ℝ => s ^ n) (n * s ^ (n - 1)) s := fun n => hasDerivAt_pow n s
    have := (((((((((hasDerivAt_id s).const_mul (a ^ 2)).add (((p 2).const_mul (2 * a * b - a ^ 2)).div_const 2)).add
      (((p 3).const_mul (b ^ 2 + 2 * a * c - 2 * a * b)).div_const 3)).add
      (((p 4).const_mul (2 * a * d + 2 * b * c - b ^ 2 - 2 * a * c)).div_const 4)).add
      (((p 5).const_mul (c ^ 2 + 2 * b * d - 2 * a * d - 2 * b * c)).div_const 5)).add
      (((p 6).const_mul (2 * c * d - c ^ 2 - 2 * b * d)).div_const 6)).add
      (((p 7).const_mul (d ^ 2 - 2 * c * d)).div_const 7)).sub (((p 8).const_mul (d ^ 2)).div_const 8))
    refine this.congr_deriv ?_
    norm_num
    ring
  rw [intervalIntegral.integral_eq_sub_of_hasDerivAt (fun s _ => h s) (Continuous.intervalIntegrable (by fun_prop) _ _)]
  ring

/-- The value of a cubic at the end of an interval. -/
theorem cubic_end (a b c d : ℝ) : a ^ 2 ≤ 20 * ∫ s in (0:ℝ)..1, (1 - s) * (a + b * s + c * s ^ 2 + d * s ^ 3) ^ 2 := by
  have h := cubic_int (a - a) (b + 9 * a) (c - 21 * a) (d + 14 * a)
  have h0 : 0 ≤ ∫ s in (0:ℝ)..1, (1 - s) * ((a - a) + (b + 9 * a) * s + (c - 21 * a) * s ^ 2 + (d + 14 * a) * s ^ 3) ^ 2 :=
    intervalIntegral.integral_nonneg zero_le_one fun s hs => mul_nonneg (by linarith [hs.2]) (sq_nonneg _)
  rw [h] at h0
  rw [cubic_int]
  nlinarith [h0]

namespace AnaD

/-- Polynomial of degree at most `k` along every line. -/
def Deg (k : ℕ) (f : AnaD 2) : Prop :=
  ∀ P w : Fin 2 → ℝ, ∃ p : Polynomial ℝ, p.natDegree ≤ k ∧ ∀ s, f.1 (fun c => P c + s * w c) = p.eval s

/-- A polynomial of total degree at most `k`. -/
def Total (k : ℕ) (f : AnaD 2) : Prop :=
  ∃ c : ℕ → ℕ → ℝ, ∀ x, f.1 x = ∑ i ∈ range (k + 1), ∑ j ∈ range (k + 1 - i), c i j * (x 0 ^ i * x 1 ^ j)

theorem lin_natDegree (a b : ℝ) (i : ℕ) : ((Polynomial.C a + Polynomial.C b * Polynomial.X) ^ i).natDegree ≤ i := by
  refine Polynomial.natDegree_pow_le.trans ?_
  have : (Polynomial.C a + Polynomial.C b * Polynomial.X).natDegree ≤ 1 := by
    rw [add_comm]; exact Polynomial.natDegree_linear_le
  calc i * _ ≤ i * 1 := Nat.mul_le_mul_left _ this
    _ = i := mul_one i

theorem deg_of_sum {k : ℕ} {f : AnaD 2} {ι : Type} (I : Finset ι) (c : ι → ℝ) (p q : ι → ℕ) (h : ∀ i ∈ I, p i + q i ≤ k)
    (hf : ∀ x, f.1 x = ∑ i ∈ I, c i * (x 0 ^ p i * x 1 ^ q i)) : Deg k f := by
  intro P w
  refine ⟨∑ i ∈ I, Polynomial.C (c i) * ((Polynomial.C (P 0) + Polynomial.C (w 0) * Polynomial.X) ^ p i
    * (Polynomial.C (P 1) + Polynomial.C (w 1) * Polynomial.X) ^ q i), ?_, fun s => ?_⟩
  · refine Polynomial.natDegree_sum_le_of_forall_le _ _ fun i hi => ?_
    refine (Polynomial.natDegree_C_mul_le _ _).trans (Polynomial.natDegree_mul_le.trans ?_)
    exact (add_le_add (lin_natDegree _ _ _) (lin_natDegree _ _ _)).trans (h i hi)
  · rw [hf, Polynomial.eval_finsetSum]
    refine sum_congr rfl fun i _ => ?_
    simp only [Polynomial.eval_mul, Polynomial.eval_pow, Polynomial.eval_add, Polynomial.eval_C, Polynomial.eval_X]
    ring

theorem Total.deg {k : ℕ} {f : AnaD 2} (h : Total k f) : Deg k f := by
  obtain ⟨c, hc⟩ := h
  refine deg_of_sum ((range (k + 1)).sigma fun i => range (k + 1 - i)) (fun i => c i.1 i.2) (fun i => i.1) (fun i => i.2) ?_ fun x => ?_
  · rintro ⟨i, j⟩ h
    simp only [mem_sigma, mem_range] at h
    dsimp only
    omega
  · rw [hc, sum_sigma]

theorem Total.pd_deg {k : ℕ} {f : AnaD 2} (h : Total k f) (b : Fin 2) : Deg k (pd b f) := by
  obtain ⟨c, hc⟩ := h
  have hd : ∀ x : Fin 2 → ℝ, HasDerivAt (fun s => f.1 (fun c => x c + s * (Pi.single b 1 : Fin 2 → ℝ) c)) ((pd b f).1 x) 0 := by
    intro x
    have := line_has f x (Pi.single b 1) 0
    simp only [zero_mul, add_zero] at this
    refine this.congr_deriv ?_
    fin_cases b <;> simp
  have hp : ∀ (a : ℝ) (i : ℕ), HasDerivAt (fun s : ℝ => (a + s * 1) ^ i) (i * a ^ (i - 1)) 0 := by
    intro a i
    have := (((hasDerivAt_id (0:ℝ)).mul_const 1).const_add a).fun_pow i
    simpa using this
  refine deg_of_sum ((range (k + 1)).sigma fun i => range (k + 1 - i)) (fun i => c i.1 i.2 * (if b = 0 then (i.1 : ℝ) else i.2))
    (fun i => if b = 0 then i.1 - 1 else i.1) (fun i => if b = 0 then i.2 else i.2 - 1) ?_ fun x => ?_
  · rintro ⟨i, j⟩ h
    simp only [mem_sigma, mem_range] at h
    dsimp only
    split_ifs <;> omega
  · refine (hd x).unique ?_
    simp only [hc]
    rw [sum_sigma]
    refine HasDerivAt.fun_sum fun i _ => HasDerivAt.fun_sum fun j _ => ?_
    fin_cases b
    · refine (((hp (x 0) i).mul_const (x 1 ^ j)).const_mul (c i j)).congr_deriv ?_ |>.congr_of_eventuallyEq (Filter.Eventually.of_forall fun s => ?_)
      · simp; ring
      · simp
    · refine (((hp (x 1) j).const_mul (x 0 ^ i)).const_mul (c i j)).congr_deriv ?_ |>.congr_of_eventuallyEq (Filter.Eventually.of_forall fun s => ?_)
      · simp; ring
      · simp

theorem Deg.end_le {f : AnaD 2} (h : Deg 3 f) (P w : Fin 2 → ℝ) :
    f.1 P ^ 2 ≤ 20 * ∫ s in (0:ℝ)..1, (1 - s) * f.1 (fun c => P c + s * w c) ^ 2 := by
  obtain ⟨p, hp, he⟩ := h P w
  have e : ∀ s, p.eval s = p.coeff 0 + p.coeff 1 * s + p.coeff 2 * s ^ 2 + p.coeff 3 * s ^ 3 := by
    intro s
    rw [Polynomial.eval_eq_sum_range' (n := 4) (by omega)]
    simp only [sum_range_succ, range_zero, sum_empty]
    ring
  have h0 : f.1 P = p.coeff 0 := by
    have := he 0
    rw [e] at this
    simpa using this
  simp only [he, e, h0]
  exact cubic_end _ _ _ _

/-- The integral over a triangle, along the segments from an edge to the opposite vertex. -/
theorem ref_cone (A B C : Fin 2 → ℝ) (g : AnaD 2) : refInt (fun s t => g.1 (refPt A B C s t))
    = ∫ r in (0:ℝ)..1, ∫ s in (0:ℝ)..1, (1 - s) * g.1 (fun c => segPt A B r c + s * (C c - segPt A B r c)) := by
  have hc : Continuous fun p : ℝ × ℝ => (1 - p.2) * g.1 (fun c => segPt A B p.1 c + p.2 * (C c - segPt A B p.1 c)) := by
    refine (by fun_prop : Continuous fun p : ℝ × ℝ => 1 - p.2).mul ((cont g).comp ?_)
    unfold segPt
    fun_prop
  rw [intervalIntegral_intervalIntegral_swap, refInt_swap (ref_cont A B C g)]
  · refine intervalIntegral.integral_congr fun s hs => ?_
    dsimp only
    have := intervalIntegral.smul_integral_comp_mul_left (a := 0) (b := 1) (fun t => g.1 (refPt A B C t s)) (1 - s)
    rw [mul_zero, mul_one, smul_eq_mul] at this
    rw [← this, ← intervalIntegral.integral_const_mul]
    refine intervalIntegral.integral_congr fun r _ => ?_
    refine congrArg (fun y => (1 - s) * g.1 y) (funext fun c => ?_)
    simp only [refPt, segPt]
    ring
  · exact (hc.continuousOn.integrableOn_compact (isCompact_Icc.prod isCompact_Icc)).mono_set
      (by rw [Set.uIoc_of_le zero_le_one]; exact Set.prod_mono Set.Ioc_subset_Icc_self Set.Ioc_subset_Icc_self)

theorem seg_inverse (A B C : Fin 2 → ℝ) {f : AnaD 2} (h : Deg 3 f) :
    ∫ r in (0:ℝ)..1, f.1 (segPt A B r) * f.1 (segPt A B r) ≤ 20 * refInt fun s t => f.1 (refPt A B C s t) * f.1 (refPt A B C s t) := by
  have hg := ref_cone A B C (mul f f)
  change refInt (fun s t => f.1 (refPt A B C s t) * f.1 (refPt A B C s t)) = _ at hg
  have hc : Continuous fun p : ℝ × ℝ => (1 - p.2) * (mul f f).1 (fun c => segPt A B p.1 c + p.2 * (C c - segPt A B p.1 c)) := by
    refine (by fun_prop : Continuous fun p : ℝ × ℝ => 1 - p.2).mul ((cont (mul f f)).comp ?_)
    unfold segPt
    fun_prop
  rw [hg, ← intervalIntegral.integral_const_mul]
  refine intervalIntegral.integral_mono_on zero_le_one ?_ ?_ fun r _ => ?_
  · exact (((cont f).comp (segPt_cont A B)).mul ((cont f).comp (segPt_cont A B))).intervalIntegrable _ _
  · exact (continuous_const.mul (intervalIntegral.continuous_parametric_intervalIntegral_of_continuous' hc 0 1)).intervalIntegrable _ _
  · have := h.end_le (segPt A B r) (fun c => C c - segPt A B r c)
    rw [← pow_two]
    refine this.trans_eq ?_
    congr 1
    refine intervalIntegral.integral_congr fun s _ => ?_
    change _ = (1 - s) * (_ * _)
    rw [← pow_two]

end AnaD

namespace Tri
variable {m : Tri}
open AnaD

theorem cellInt_rot (K : Fin m.n) (i : Fin 3) (f : AnaD 2) :
    triInt (m.v K i) (m.v K (i + 1)) (m.v K (i + 2)) f = cellInt K f := by
  fin_cases i
  · rfl
  · exact triInt_rot _ _ _ f
  · exact (triInt_rot _ _ _ f).trans (triInt_rot _ _ _ f)

variable (m) in
/-- Twice the area of a triangle. -/
def det (K : Fin m.n) : ℝ := det2 (m.v K 0) (m.v K 1) (m.v K 2)

theorem det_rot (K : Fin m.n) (i : Fin 3) : det2 (m.v K i) (m.v K (i + 1)) (m.v K (i + 2)) = m.det K := by
  fin_cases i
  · rfl
  · change det2 (m.v K 1) (m.v K 2) (m.v K 0) = det2 (m.v K 0) (m.v K 1) (m.v K 2)
    unfold det2; ring
  · change det2 (m.v K 2) (m.v K 0) (m.v K 1) = det2 (m.v K 0) (m.v K 1) (m.v K 2)
    unfold det2; ring

/-- The inverse estimate for an edge. -/
theorem edge_inverse (e : m.Edge) {f : AnaD 2} (h : Deg 3 f) : m.edgeL2 e f f ≤ 20 * len e / m.det e.1 * m.cellL2 e.1 f f := by
  have hd := m.pos e.1
  have h1 := seg_inverse (src e) (tgt e) (m.v e.1 (e.2 + 2)) h
  have h2 : m.cellL2 e.1 f f = m.det e.1 * refInt fun s t => f.1 (refPt (src e) (tgt e) (m.v e.1 (e.2 + 2)) s t)
      * f.1 (refPt (src e) (tgt e) (m.v e.1 (e.2 + 2)) s t) := by
    rw [cellL2_eq, ← cellInt_rot e.1 e.2, triInt_eq, det_rot]
    rfl
  rw [h2]
  change len e * (∫ r in (0:ℝ)..1, f.1 (segPt (src e) (tgt e) r) * f.1 (segPt (src e) (tgt e) r)) ≤ _
  have h3 : 20 * len e / m.det e.1 * (m.det e.1 * refInt fun s t => f.1 (refPt (src e) (tgt e) (m.v e.1 (e.2 + 2)) s t)
      * f.1 (refPt (src e) (tgt e) (m.v e.1 (e.2 + 2)) s t)) = len e * (20 * refInt fun s t => f.1 (refPt (src e) (tgt e) (m.v e.1 (e.2 + 2)) s t)
      * f.1 (refPt (src e) (tgt e) (m.v e.1 (e.2 + 2)) s t)) := by
    have : m.det e.1 ≠ 0 := hd.ne'
    field_simp
  rw [h3]
  exact mul_le_mul_of_nonneg_left h1 (len_pos e).le

end Tri
end Dxss
