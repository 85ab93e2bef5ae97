import Verif.Lemmas.TriSquare

/-! # The linear interpolant of a function on a triangle -/

namespace Dxss
open Finset MeasureTheory
namespace AnaD

/-- The affine function `a + b (x - P)`. -/
noncomputable def aff (a : ℝ) (g P : Fin 2 → ℝ) : AnaD 2 :=
  ⟨fun x => a + (g 0 * (x 0 - P 0) + g 1 * (x 1 - P 1)), mem (by
    have h : ∀ b : Fin 2, AnalyticOnNhd ℝ (fun x : Fin 2 → ℝ => x b) Set.univ := fun b =>
      (ContinuousLinearMap.proj (R := ℝ) (φ := fun _ : Fin 2 => ℝ) b).analyticOnNhd Set.univ
    exact analyticOnNhd_const.add ((analyticOnNhd_const.mul ((h 0).sub analyticOnNhd_const)).add
      (analyticOnNhd_const.mul ((h 1).sub analyticOnNhd_const))))⟩

theorem aff_apply (a : ℝ) (g P x : Fin 2 → ℝ) : (aff a g P).1 x = a + (g 0 * (x 0 - P 0) + g 1 * (x 1 - P 1)) := rfl

theorem pd_of_line {f : AnaD 2} {b : Fin 2} {x : Fin 2 → ℝ} {d : ℝ}
    (h : HasDerivAt (fun s => f.1 (fun c => x c + s * (Pi.single b 1 : Fin 2 → ℝ) c)) d 0) : (pd b f).1 x = d := by
  have := line_has f x (Pi.single b 1) 0
  simp only [zero_mul, add_zero] at this
  refine HasDerivAt.unique ?_ h
  refine this.congr_deriv ?_
  fin_cases b <;> simp

theorem pd_aff (a : ℝ) (g P : Fin 2 → ℝ) (b : Fin 2) (x : Fin 2 → ℝ) : (pd b (aff a g P)).1 x = g b := by
  refine pd_of_line ?_
  have h : ∀ c d : ℝ, HasDerivAt (fun s : ℝ => c + s * d) d 0 := fun c d => by
    simpa using ((hasDerivAt_id (0:ℝ)).mul_const d).const_add c
  fin_cases b
  · refine (h ((aff a g P).1 x) (g 0)).congr_of_eventuallyEq (Filter.Eventually.of_forall fun s => ?_)
    simp [aff_apply]; ring
  · refine (h ((aff a g P).1 x) (g 1)).congr_of_eventuallyEq (Filter.Eventually.of_forall fun s => ?_)
    simp [aff_apply]; ring

theorem pd_pd_aff (a : ℝ) (g P : Fin 2 → ℝ) (b : Fin 2) : pd b (pd b (aff a g P)) = 0 := by
  refine Subtype.ext (funext fun x => ?_)
  refine pd_of_line ?_
  simp only [pd_aff]
  exact hasDerivAt_const _ _

theorem aff_total (a : ℝ) (g P : Fin 2 → ℝ) {k : ℕ} (hk : 1 ≤ k) : Total k (aff a g P) := by
  refine ⟨fun i j => if i = 0 ∧ j = 0 then a - g 0 * P 0 - g 1 * P 1 else if i = 1 ∧ j = 0 then g 0 else if i = 0 ∧ j = 1 then g 1 else 0,
    fun x => ?_⟩
  rw [aff_apply]
  obtain ⟨k, rfl⟩ : ∃ l, k = l + 1 := ⟨k - 1, by omega⟩
  rw [sum_range_succ', sum_range_succ', Nat.sub_zero, sum_range_succ', sum_range_succ']
  have z1 : ∑ i ∈ range k, ∑ j ∈ range (k + 1 + 1 - (i + 1 + 1)), (if i + 1 + 1 = 0 ∧ j = 0 then a - g 0 * P 0 - g 1 * P 1
      else if i + 1 + 1 = 1 ∧ j = 0 then g 0 else if i + 1 + 1 = 0 ∧ j = 1 then g 1 else 0) * (x 0 ^ (i + 1 + 1) * x 1 ^ j) = 0 :=
    sum_eq_zero fun i _ => sum_eq_zero fun j _ => by simp
  have z2 : ∑ i ∈ range k, (if 0 = 0 ∧ i + 1 + 1 = 0 then a - g 0 * P 0 - g 1 * P 1
      else if 0 = 1 ∧ i + 1 + 1 = 0 then g 0 else if 0 = 0 ∧ i + 1 + 1 = 1 then g 1 else 0) * (x 0 ^ 0 * x 1 ^ (i + 1 + 1)) = 0 :=
    sum_eq_zero fun i _ => by simp
  have z3 : ∑ j ∈ range (k + 1 + 1 - (0 + 1)), (if 0 + 1 = 0 ∧ j = 0 then a - g 0 * P 0 - g 1 * P 1
      else if 0 + 1 = 1 ∧ j = 0 then g 0 else if 0 + 1 = 0 ∧ j = 1 then g 1 else 0) * (x 0 ^ (0 + 1) * x 1 ^ j) = g 0 * x 0 := by
    rw [sum_eq_single 0]
    · simp
    · intro j _ hj; simp [hj]
    · intro h; exact absurd (mem_range.2 (by omega)) h
  rw [z1, z2, z3]
  simp
  ring

/-- The linear interpolant on the triangle with vertices `A`, `B`, `C`. -/
noncomputable def lin (A B C : Fin 2 → ℝ) (f : AnaD 2) : AnaD 2 :=
  aff (f.1 A) ![((f.1 B - f.1 A) * (C 1 - A 1) - (f.1 C - f.1 A) * (B 1 - A 1)) / det2 A B C,
    ((B 0 - A 0) * (f.1 C - f.1 A) - (C 0 - A 0) * (f.1 B - f.1 A)) / det2 A B C] A

variable {A B C : Fin 2 → ℝ}

theorem lin_ref (hd : 0 < det2 A B C) (f : AnaD 2) (s t : ℝ) :
    (lin A B C f).1 (refPt A B C s t) = (1 - s - t) * f.1 A + s * f.1 B + t * f.1 C := by
  have h : det2 A B C ≠ 0 := hd.ne'
  rw [lin, aff_apply]
  simp only [Matrix.cons_val_zero, Matrix.cons_val_one, refPt]
  rw [div_mul_eq_mul_div, div_mul_eq_mul_div, ← add_div]
  rw [show (((f.1 B - f.1 A) * (C 1 - A 1) - (f.1 C - f.1 A) * (B 1 - A 1)) * (A 0 + s * (B 0 - A 0) + t * (C 0 - A 0) - A 0)
    + ((B 0 - A 0) * (f.1 C - f.1 A) - (C 0 - A 0) * (f.1 B - f.1 A)) * (A 1 + s * (B 1 - A 1) + t * (C 1 - A 1) - A 1))
    = (s * (f.1 B - f.1 A) + t * (f.1 C - f.1 A)) * det2 A B C by unfold det2; ring]
  rw [mul_div_assoc, div_self h]
  ring

theorem pd_lin (f : AnaD 2) (b : Fin 2) (x y : Fin 2 → ℝ) : (pd b (lin A B C f)).1 x = (pd b (lin A B C f)).1 y := by
  unfold lin; rw [pd_aff, pd_aff]

theorem segLen_nonneg (P Q : Fin 2 → ℝ) : 0 ≤ segLen P Q := Real.sqrt_nonneg _

theorem abs_add_sq (a b : ℝ) : (|a| + |b|) ^ 2 ≤ 2 * (a ^ 2 + b ^ 2) := by
  nlinarith [sq_abs a, sq_abs b, sq_nonneg (|a| - |b|)]

theorem abs_add_le_len (P Q : Fin 2 → ℝ) : |Q 0 - P 0| + |Q 1 - P 1| ≤ √2 * segLen P Q := by
  rw [segLen, ← Real.sqrt_mul (by norm_num)]
  exact Real.le_sqrt_of_sq_le (abs_add_sq _ _)

/-- Mean value theorem on the segment from `P` to `P + w`. -/
theorem line_mean (f : AnaD 2) (P w : Fin 2 → ℝ) :
    ∃ s ∈ Set.Icc (0:ℝ) 1, f.1 (fun c => P c + w c) - f.1 P
      = w 0 * (pd 0 f).1 (fun c => P c + s * w c) + w 1 * (pd 1 f).1 (fun c => P c + s * w c) := by
  have hc : Continuous fun s : ℝ => f.1 (fun c => P c + s * w c) :=
    continuous_iff_continuousAt.2 fun s => (line_has f P w s).continuousAt
  obtain ⟨s, hs, h⟩ := exists_hasDerivAt_eq_slope _ _ (zero_lt_one' ℝ) hc.continuousOn fun s _ => line_has f P w s
  refine ⟨s, Set.Ioo_subset_Icc_self hs, ?_⟩
  simp only [one_mul, zero_mul, add_zero, sub_zero, div_one] at h
  exact h.symm

/-- Second derivatives bounded by `M` in the plane. -/
def Bd2 (M : ℝ) (f : AnaD 2) : Prop := ∀ b c x, |(pd b (pd c f)).1 x| ≤ M

/-- First derivatives differ by at most the distance times the bound. -/
theorem pd_diff {M : ℝ} {f : AnaD 2} (hf : Bd2 M f) (b : Fin 2) (x y : Fin 2 → ℝ) :
    |(pd b f).1 x - (pd b f).1 y| ≤ M * (√2 * segLen y x) := by
  obtain ⟨s, -, h⟩ := line_mean (pd b f) y fun c => x c - y c
  have hM : 0 ≤ M := (abs_nonneg _).trans (hf 0 0 x)
  simp only [add_sub_cancel] at h
  rw [h]
  refine (abs_add_le _ _).trans ?_
  rw [abs_mul, abs_mul]
  have h0 := mul_le_mul_of_nonneg_left (hf 0 b fun c => y c + s * (x c - y c)) (abs_nonneg (x 0 - y 0))
  have h1 := mul_le_mul_of_nonneg_left (hf 1 b fun c => y c + s * (x c - y c)) (abs_nonneg (x 1 - y 1))
  have := mul_le_mul_of_nonneg_left (abs_add_le_len y x) hM
  linarith

theorem dir_diff {M : ℝ} {f : AnaD 2} (hf : Bd2 M f) (P Q x y : Fin 2 → ℝ) :
    |((Q 0 - P 0) * (pd 0 f).1 x + (Q 1 - P 1) * (pd 1 f).1 x) - ((Q 0 - P 0) * (pd 0 f).1 y + (Q 1 - P 1) * (pd 1 f).1 y)|
      ≤ 2 * M * (segLen P Q * segLen y x) := by
  have hM : 0 ≤ M := (abs_nonneg _).trans (hf 0 0 x)
  have hx := segLen_nonneg y x
  rw [show ((Q 0 - P 0) * (pd 0 f).1 x + (Q 1 - P 1) * (pd 1 f).1 x) - ((Q 0 - P 0) * (pd 0 f).1 y + (Q 1 - P 1) * (pd 1 f).1 y)
    = (Q 0 - P 0) * ((pd 0 f).1 x - (pd 0 f).1 y) + (Q 1 - P 1) * ((pd 1 f).1 x - (pd 1 f).1 y) by ring]
  refine (abs_add_le _ _).trans ?_
  rw [abs_mul, abs_mul]
  have h0 := mul_le_mul_of_nonneg_left (pd_diff hf 0 x y) (abs_nonneg (Q 0 - P 0))
  have h1 := mul_le_mul_of_nonneg_left (pd_diff hf 1 x y) (abs_nonneg (Q 1 - P 1))
  have h2 := mul_le_mul_of_nonneg_right (abs_add_le_len P Q) (show 0 ≤ M * (√2 * segLen y x) by positivity)
  have e : √2 * segLen P Q * (M * (√2 * segLen y x)) = (√2 * √2) * (M * (segLen P Q * segLen y x)) := by ring
  rw [e, Real.mul_self_sqrt (by norm_num)] at h2
  linarith

theorem ref_mem {s t : ℝ} (hs : 0 ≤ s) (ht : 0 ≤ t) (hst : s + t ≤ 1) : refPt A B C s t ∈ hull A B C := by
  rw [hull_eq]
  exact ⟨![s, t], ⟨hs, ht, hst⟩, rfl⟩

theorem ref_A : refPt A B C 0 0 = A := funext fun c => by unfold refPt; ring
theorem ref_B : refPt A B C 1 0 = B := funext fun c => by unfold refPt; ring
theorem ref_C : refPt A B C 0 1 = C := funext fun c => by unfold refPt; ring

theorem lin_A (hd : 0 < det2 A B C) (f : AnaD 2) : (lin A B C f).1 A = f.1 A := by
  have := lin_ref hd f 0 0
  rw [ref_A] at this; rw [this]; ring
theorem lin_B (hd : 0 < det2 A B C) (f : AnaD 2) : (lin A B C f).1 B = f.1 B := by
  have := lin_ref hd f 1 0
  rw [ref_B] at this; rw [this]; ring
theorem lin_C (hd : 0 < det2 A B C) (f : AnaD 2) : (lin A B C f).1 C = f.1 C := by
  have := lin_ref hd f 0 1
  rw [ref_C] at this; rw [this]; ring

/-- Derivative of the interpolation error along an edge from `A`. -/
theorem lin_edge {M h : ℝ} {f : AnaD 2} (hf : Bd2 M f) (hd : 0 < det2 A B C) (hAB : segLen A B ≤ h) (hBC : segLen B C ≤ h)
    (hCA : segLen C A ≤ h) {Q : Fin 2 → ℝ} (hQ : Q = B ∨ Q = C) {x : Fin 2 → ℝ} (hx : x ∈ hull A B C) :
    |(Q 0 - A 0) * (pd 0 (f - lin A B C f)).1 x + (Q 1 - A 1) * (pd 1 (f - lin A B C f)).1 x| ≤ 2 * M * h ^ 2 := by
  obtain ⟨s, hs, e⟩ := line_mean (f - lin A B C f) A fun c => Q c - A c
  have hM : 0 ≤ M := (abs_nonneg _).trans (hf 0 0 x)
  have hh : 0 ≤ h := (segLen_nonneg A B).trans hAB
  simp only [add_sub_cancel] at e
  have e1 : (f - lin A B C f).1 A = 0 := by
    change f.1 A - (lin A B C f).1 A = 0
    rw [lin_A hd, sub_self]
  have e2 : (f - lin A B C f).1 Q = 0 := by
    change f.1 Q - (lin A B C f).1 Q = 0
    rcases hQ with rfl | rfl
    · rw [lin_B hd, sub_self]
    · rw [lin_C hd, sub_self]
  rw [e1, e2, sub_zero] at e
  set y : Fin 2 → ℝ := fun c => A c + s * (Q c - A c) with hy
  have hyh : y ∈ hull A B C := by
    rcases hQ with rfl | rfl
    · have := ref_mem (A := A) (B := Q) (C := C) hs.1 le_rfl (by linarith [hs.2])
      convert this using 1
      funext c; simp [hy, refPt]
    · have := ref_mem (A := A) (B := B) (C := Q) le_rfl hs.1 (by linarith [hs.2])
      convert this using 1
      funext c; simp [hy, refPt]
  have hl : segLen A Q ≤ h := by
    rcases hQ with rfl | rfl
    · exact hAB
    · rw [Dxss.segLen_symm]; exact hCA
  have hD := dir_diff hf A Q x y
  have hyx : segLen y x ≤ h := (hull_dist hyh hx).trans (max_le (max_le hAB hBC) hCA)
  have hp : ∀ b z, (pd b (f - lin A B C f)).1 z = (pd b f).1 z - (pd b (lin A B C f)).1 z := fun b z => by rw [map_sub]; rfl
  rw [hp, hp] at e ⊢
  rw [pd_lin f 0 y x, pd_lin f 1 y x] at e
  have h2 : segLen A Q * segLen y x ≤ h * h := mul_le_mul hl hyx (segLen_nonneg _ _) hh
  have h3 := mul_le_mul_of_nonneg_left h2 (show 0 ≤ 2 * M by positivity)
  refine le_trans (le_of_eq ?_) (hD.trans (h3.trans_eq (by ring)))
  congr 1
  linarith

/-- The interpolation error and its gradient. -/
theorem lin_err {M h δ : ℝ} {f : AnaD 2} (hf : Bd2 M f) (hδ : 0 < δ) (hd : δ ≤ det2 A B C) (hAB : segLen A B ≤ h) (hBC : segLen B C ≤ h)
    (hCA : segLen C A ≤ h) {s t : ℝ} (hs : 0 ≤ s) (ht : 0 ≤ t) (hst : s + t ≤ 1) :
    |(f - lin A B C f).1 (refPt A B C s t)| ≤ 2 * M * h ^ 2
      ∧ ∀ b, |(pd b (f - lin A B C f)).1 (refPt A B C s t)| ≤ 4 * M * h ^ 3 / δ := by
  have hd0 : 0 < det2 A B C := hδ.trans_le hd
  have hM : 0 ≤ M := (abs_nonneg _).trans (hf 0 0 A)
  have hh : 0 ≤ h := (segLen_nonneg A B).trans hAB
  have kB : ∀ x ∈ hull A B C, _ := fun x hx => lin_edge hf hd0 hAB hBC hCA (Or.inl rfl) hx
  have kC : ∀ x ∈ hull A B C, _ := fun x hx => lin_edge hf hd0 hAB hBC hCA (Or.inr rfl) hx
  set e := f - lin A B C f with he
  constructor
  · obtain ⟨r, hr, h1⟩ := line_mean e A fun c => s * (B c - A c) + t * (C c - A c)
    have e1 : e.1 A = 0 := by
      change f.1 A - (lin A B C f).1 A = 0
      rw [lin_A hd0, sub_self]
    have e2 : (fun c => A c + (s * (B c - A c) + t * (C c - A c))) = refPt A B C s t := funext fun c => by unfold refPt; ring
    have e3 : (fun c => A c + r * (s * (B c - A c) + t * (C c - A c))) = refPt A B C (r * s) (r * t) := funext fun c => by unfold refPt; ring
    rw [e1, e2, e3, sub_zero] at h1
    have hm : refPt A B C (r * s) (r * t) ∈ hull A B C := ref_mem (mul_nonneg hr.1 hs) (mul_nonneg hr.1 ht) (by
      rw [← mul_add]; exact mul_le_one₀ hr.2 (by linarith) hst)
    have b1 := kB _ hm
    have b2 := kC _ hm
    set z := refPt A B C (r * s) (r * t)
    rw [h1, show (s * (B 0 - A 0) + t * (C 0 - A 0)) * (pd 0 e).1 z + (s * (B 1 - A 1) + t * (C 1 - A 1)) * (pd 1 e).1 z
      = s * ((B 0 - A 0) * (pd 0 e).1 z + (B 1 - A 1) * (pd 1 e).1 z) + t * ((C 0 - A 0) * (pd 0 e).1 z + (C 1 - A 1) * (pd 1 e).1 z) by ring]
    refine (abs_add_le _ _).trans ?_
    rw [abs_mul, abs_mul, abs_of_nonneg hs, abs_of_nonneg ht]
    have c1 := mul_le_mul_of_nonneg_left b1 hs
    have c2 := mul_le_mul_of_nonneg_left b2 ht
    have c3 : (s + t) * (2 * M * h ^ 2) ≤ 2 * M * h ^ 2 := mul_le_of_le_one_left (by positivity) hst
    linarith
  · have hm := ref_mem (A := A) (B := B) (C := C) hs ht hst
    have b1 := kB _ hm
    have b2 := kC _ hm
    set z := refPt A B C s t
    set p := (B 0 - A 0) * (pd 0 e).1 z + (B 1 - A 1) * (pd 1 e).1 z with hp
    set q := (C 0 - A 0) * (pd 0 e).1 z + (C 1 - A 1) * (pd 1 e).1 z with hq
    have comp : ∀ (P Q : Fin 2 → ℝ) (b : Fin 2), |Q b - P b| ≤ segLen P Q := by
      intro P Q b
      refine Real.abs_le_sqrt ?_
      fin_cases b
      · exact le_add_of_nonneg_right (sq_nonneg _)
      · exact le_add_of_nonneg_left (sq_nonneg _)
    have hAC : segLen A C ≤ h := by rw [Dxss.segLen_symm]; exact hCA
    have main : ∀ b u w, |u| ≤ h → |w| ≤ h → det2 A B C * (pd b e).1 z = u * p + w * q → |(pd b e).1 z| ≤ 4 * M * h ^ 3 / δ := by
      intro b u w hu hw hE
      have a1 : |u * p| ≤ h * (2 * M * h ^ 2) := by rw [abs_mul]; exact mul_le_mul hu b1 (abs_nonneg _) hh
      have a2 : |w * q| ≤ h * (2 * M * h ^ 2) := by rw [abs_mul]; exact mul_le_mul hw b2 (abs_nonneg _) hh
      have a3 := abs_add_le (u * p) (w * q)
      rw [← hE, abs_mul, abs_of_pos hd0] at a3
      have a4 := mul_le_mul_of_nonneg_right hd (abs_nonneg ((pd b e).1 z))
      rw [le_div_iff₀ hδ]
      linarith
    intro b
    fin_cases b
    · refine main 0 (C 1 - A 1) (-(B 1 - A 1)) ((comp A C 1).trans hAC) (by rw [abs_neg]; exact (comp A B 1).trans hAB) ?_
      rw [hp, hq]; unfold det2; ring
    · refine main 1 (-(C 0 - A 0)) (B 0 - A 0) (by rw [abs_neg]; exact (comp A C 0).trans hAC) ((comp A B 0).trans hAB) ?_
      rw [hp, hq]; unfold det2; ring

end AnaD
end Dxss
