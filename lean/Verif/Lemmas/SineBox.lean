import Verif.Lemmas.GridInterp

/-!
# The product of sines on a grid of equal boxes and its interpolant
-/

namespace Dxss
open Finset Real

/-- `sin(πx)` -/
noncomputable def anaPi : Ana := ⟨fun y => sin (π * y), mem_ana (analyticOnNhd_sin.comp' (analyticOnNhd_const.mul analyticOnNhd_id))⟩

theorem anaPi_apply (y : ℝ) : anaPi.1 y = sin (π * y) := rfl

theorem anaPi_deriv (y : ℝ) : (anaDeriv anaPi).1 y = cos (π * y) * π := by
  have h0 : HasDerivAt (fun y : ℝ => π * y) π y := by simpa using (hasDerivAt_id y).const_mul π
  exact h0.sin.deriv

theorem anaPi_deriv2 : anaDeriv (anaDeriv anaPi) = (-π ^ 2) • anaPi := by
  refine Subtype.ext (funext fun y => ?_)
  have h0 : HasDerivAt (fun y : ℝ => π * y) π y := by simpa using (hasDerivAt_id y).const_mul π
  change deriv (anaDeriv anaPi).1 y = -π ^ 2 * sin (π * y)
  rw [show (anaDeriv anaPi).1 = fun y => cos (π * y) * π from funext anaPi_deriv, (h0.cos.mul_const π).deriv]
  ring

theorem anaPi_le (y : ℝ) : |anaPi.1 y| ≤ 1 := abs_sin_le_one _

theorem anaPi_deriv_le (y : ℝ) : |(anaDeriv anaPi).1 y| ≤ π := by
  rw [anaPi_deriv, abs_mul, abs_of_pos pi_pos]
  exact mul_le_of_le_one_left pi_pos.le (abs_cos_le_one _)

theorem anaPi_deriv2_le (y : ℝ) : |(anaDeriv (anaDeriv anaPi)).1 y| ≤ π ^ 2 := by
  rw [anaPi_deriv2]
  change |-π ^ 2 * anaPi.1 y| ≤ _
  rw [neg_mul, abs_neg, abs_mul, abs_of_nonneg (sq_nonneg _)]
  exact mul_le_of_le_one_right (sq_nonneg _) (anaPi_le y)

theorem sines_eq {d : ℕ} (c : ℝ) : (AnaD.sines c : AnaD d) = c • AnaD.prod fun _ => anaPi := rfl

/-! ### Interpolation on one cell of the unit interval -/

section
variable {k : ℕ} (hk : 0 < k) (i : Fin k)

/-- The interpolant of the sine on a cell. -/
noncomputable def piI : Ana := (Mesh1.unit k hk).interp anaPi i

theorem piI_cell : piI hk i = (Mesh1.unit k hk).cell i ((Mesh1.unit k hk).interp anaPi) :=
  ((Mesh1.unit k hk).cell_apply (i := i) i.2 _).symm

variable {i} in
theorem piI_err {y : ℝ} (hy : y ∈ Set.Icc ((Mesh1.unit k hk).x i) ((Mesh1.unit k hk).x (i + 1))) :
    |anaPi.1 y - (piI hk i).1 y| ≤ π ^ 2 * (1 / k) ^ 2 / 8 ∧ |(anaDeriv anaPi).1 y - (anaDeriv (piI hk i)).1 y| ≤ π ^ 2 * (1 / k) / 2 := by
  have h := (Mesh1.unit k hk).interp_err anaPi anaPi_deriv2_le (i := i) i.2 hy
  rw [unit_step hk, map_sub, Mesh1.cell_fn _ i.2, ← piI_cell] at h
  have e : deriv (anaPi - piI hk i).1 y = (anaDeriv anaPi).1 y - (anaDeriv (piI hk i)).1 y := by
    change (anaDeriv (anaPi - piI hk i)).1 y = _
    rw [map_sub]; rfl
  exact ⟨h.1, e ▸ h.2⟩

theorem piI_deriv_le (y : ℝ) : |(anaDeriv (piI hk i)).1 y| ≤ π := by
  have h := (Mesh1.unit k hk).interp_deriv anaPi (i := i) i.2 y
  rw [← piI_cell] at h
  have hh : 0 < (Mesh1.unit k hk).h i := (Mesh1.unit k hk).h_pos i.2
  change |deriv (piI hk i).1 y| ≤ π
  rw [h, abs_div, abs_of_pos hh, div_le_iff₀ hh]
  have := Convex.norm_image_sub_le_of_norm_deriv_le (f := anaPi.1) (C := π) (s := Set.univ) (x := (Mesh1.unit k hk).x i)
    (y := (Mesh1.unit k hk).x (i + 1)) (fun x _ => anaDiff anaPi x) (fun x _ => anaPi_deriv_le x) convex_univ trivial trivial
  rw [Real.norm_eq_abs, Real.norm_eq_abs] at this
  refine this.trans (le_of_eq ?_)
  congr 1
  exact abs_of_pos hh

variable {i} in
theorem piI_le {y : ℝ} (hy : y ∈ Set.Icc ((Mesh1.unit k hk).x i) ((Mesh1.unit k hk).x (i + 1))) : |(piI hk i).1 y| ≤ 1 := by
  have h := (Mesh1.unit k hk).interp_cell anaPi (i := i) i.2 y
  rw [← piI_cell] at h
  have hh : 0 < (Mesh1.unit k hk).h i := (Mesh1.unit k hk).h_pos i.2
  rw [h]
  have h1 : 0 ≤ ((Mesh1.unit k hk).x (i + 1) - y) / (Mesh1.unit k hk).h i := div_nonneg (sub_nonneg.2 hy.2) hh.le
  have h2 : 0 ≤ (y - (Mesh1.unit k hk).x i) / (Mesh1.unit k hk).h i := div_nonneg (sub_nonneg.2 hy.1) hh.le
  have h3 : ((Mesh1.unit k hk).x (i + 1) - y) / (Mesh1.unit k hk).h i + (y - (Mesh1.unit k hk).x i) / (Mesh1.unit k hk).h i = 1 := by
    rw [← add_div, div_eq_one_iff_eq hh.ne']
    change _ = (Mesh1.unit k hk).x (i + 1) - (Mesh1.unit k hk).x i
    ring
  refine (abs_add_le _ _).trans ?_
  rw [abs_mul, abs_mul, abs_of_nonneg h1, abs_of_nonneg h2]
  have := mul_le_of_le_one_right h1 (anaPi_le ((Mesh1.unit k hk).x i))
  have := mul_le_of_le_one_right h2 (anaPi_le ((Mesh1.unit k hk).x (i + 1)))
  linarith

theorem piI_node : (piI hk i).1 ((Mesh1.unit k hk).x i) = anaPi.1 ((Mesh1.unit k hk).x i) ∧
    (piI hk i).1 ((Mesh1.unit k hk).x (i + 1)) = anaPi.1 ((Mesh1.unit k hk).x (i + 1)) := by
  have h := (Mesh1.unit k hk).interp_node (f := anaPi) (i := i) i.2
  rw [map_sub, Mesh1.cell_fn _ i.2, ← piI_cell] at h
  exact ⟨(sub_eq_zero.1 h.1).symm, (sub_eq_zero.1 h.2).symm⟩

end

/-! ### The box -/

namespace Grid
section
variable {n k : ℕ} (hk : 0 < k)

/-- The product of sines, its interpolant, the error. -/
noncomputable def boxS : (unit n k hk).Broken := (unit n k hk).fn (AnaD.prod fun _ => anaPi)
noncomputable def boxI : (unit n k hk).Broken := (unit n k hk).interp fun _ => anaPi

theorem boxI_mem : (boxI hk : (unit n k hk).Broken) ∈ (unit n k hk).q1.primal := interp_mem _ _

variable {hk}

theorem boxI_apply (I : (unit n k hk).Cell) : boxI hk I = AnaD.prod fun a => piI hk (I a) := rfl

theorem err_cell (I : (unit n k hk).Cell) {y : Fin (n + 1) → ℝ} (hy : y ∈ Set.Icc (lo I) (hi I)) :
    |((boxS hk - boxI hk : (unit n k hk).Broken) I).1 y| ≤ (n + 1) * (π ^ 2 * (1 / k) ^ 2 / 8) := by
  have := prod_diff_le univ (f := fun a => anaPi.1 (y a)) (p := fun a => (piI hk (I a)).1 (y a)) (c := π ^ 2 * (1 / k) ^ 2 / 8)
    (fun a _ => anaPi_le _) (fun a _ => piI_le hk ⟨hy.1 a, hy.2 a⟩) fun a _ => (piI_err hk ⟨hy.1 a, hy.2 a⟩).1
  rw [card_univ, Fintype.card_fin] at this
  push_cast at this
  exact this

/-- Bound of the derivatives of the error. -/
noncomputable def gradE (n k : ℕ) : ℝ := π ^ 2 * (1 / k) / 2 + n * (π * (π ^ 2 * (1 / k) ^ 2 / 8))

theorem err_grad (b : Fin (n + 1)) (I : (unit n k hk).Cell) {y : Fin (n + 1) → ℝ} (hy : y ∈ Set.Icc (lo I) (hi I)) :
    |(AnaD.pd b ((boxS hk - boxI hk : (unit n k hk).Broken) I)).1 y| ≤ gradE n k := by
  have e : (AnaD.pd b ((boxS hk - boxI hk : (unit n k hk).Broken) I)).1 y
      = ((anaDeriv anaPi).1 (y b) - (anaDeriv (piI hk (I b))).1 (y b)) * ∏ a ∈ univ.erase b, anaPi.1 (y a)
        + (anaDeriv (piI hk (I b))).1 (y b) * (∏ a ∈ univ.erase b, anaPi.1 (y a) - ∏ a ∈ univ.erase b, (piI hk (I a)).1 (y a)) := by
    change (AnaD.pd b (AnaD.prod (fun _ => anaPi) - AnaD.prod fun a => piI hk (I a))).1 y = _
    rw [map_sub, AnaD.pd_prod, AnaD.pd_prod]
    change (AnaD.prod _).1 y - (AnaD.prod _).1 y = _
    rw [AnaD.prod_update, AnaD.prod_update]
    ring
  rw [e]
  refine (abs_add_le _ _).trans ?_
  rw [abs_mul, abs_mul]
  have h1 := (piI_err hk (i := I b) ⟨hy.1 b, hy.2 b⟩).2
  have h2 := prod_abs_le (univ.erase b) (f := fun a => anaPi.1 (y a)) fun a _ => anaPi_le _
  have h3 := prod_diff_le (univ.erase b) (f := fun a => anaPi.1 (y a)) (p := fun a => (piI hk (I a)).1 (y a)) (c := π ^ 2 * (1 / k) ^ 2 / 8)
    (fun a _ => anaPi_le _) (fun a _ => piI_le hk ⟨hy.1 a, hy.2 a⟩) fun a _ => (piI_err hk ⟨hy.1 a, hy.2 a⟩).1
  rw [card_erase_of_mem (mem_univ b), card_univ, Fintype.card_fin, Nat.add_sub_cancel] at h3
  have k1 := mul_le_mul h1 h2 (abs_nonneg _) ((abs_nonneg _).trans h1)
  have k2 := mul_le_mul (piI_deriv_le hk (I b) (y b)) h3 (abs_nonneg _) pi_pos.le
  unfold gradE
  linarith

theorem sin_grad (b : Fin (n + 1)) (I : (unit n k hk).Cell) (y : Fin (n + 1) → ℝ) :
    |(AnaD.pd b ((boxS hk : (unit n k hk).Broken) I)).1 y| ≤ π := by
  change |(AnaD.pd b (AnaD.prod fun _ => anaPi)).1 y| ≤ π
  rw [AnaD.pd_prod, AnaD.prod_update, abs_mul]
  have := mul_le_mul (anaPi_deriv_le (y b)) (prod_abs_le (univ.erase b) (f := fun a => anaPi.1 (y a)) fun a _ => anaPi_le _) (abs_nonneg _) pi_pos.le
  rwa [mul_one] at this

theorem boxI_le (I : (unit n k hk).Cell) {y : Fin (n + 1) → ℝ} (hy : y ∈ Set.Icc (lo I) (hi I)) :
    |((boxI hk : (unit n k hk).Broken) I).1 y| ≤ 1 :=
  prod_abs_le univ (f := fun a => (piI hk (I a)).1 (y a)) fun a _ => piI_le hk ⟨hy.1 a, hy.2 a⟩

theorem mass_boxS : (unit n k hk).space.mass (boxS hk) (boxS hk) = 1 / 2 ^ (n + 1) := by
  have := unit_sines (n := n) (k := k) (hk := hk) 1
  rw [sines_eq, one_smul, one_pow] at this
  exact this

theorem mass_boxE : (unit n k hk).space.mass (boxS hk - boxI hk) (boxS hk - boxI hk) ≤ ((n + 1) * (π ^ 2 * (1 / k) ^ 2 / 8)) ^ 2 := by
  have := (unit n k hk).mass_le (v := boxS hk - boxI hk) fun I y hy => err_cell I hy
  rwa [unit_one, mul_one] at this

theorem mass_boxI : (unit n k hk).space.mass (boxI hk) (boxI hk) ≤ 1 := by
  have := (unit n k hk).mass_le (v := boxI hk) fun I y hy => boxI_le I hy
  rwa [unit_one, mul_one, one_pow] at this

theorem stiff_boxS : (unit n k hk).space.stiff (boxS hk) (boxS hk) ≤ (n + 1) * π ^ 2 := by
  have := (unit n k hk).stiff_le (v := boxS hk) fun b I y _ => sin_grad b I y
  rwa [unit_one, mul_one] at this

theorem stiff_boxE : (unit n k hk).space.stiff (boxS hk - boxI hk) (boxS hk - boxI hk) ≤ (n + 1) * gradE n k ^ 2 := by
  have := (unit n k hk).stiff_le (v := boxS hk - boxI hk) fun b I y hy => err_grad b I hy
  rwa [unit_one, mul_one] at this

/-! #### Facets -/

theorem facet_vol (a : Fin (n + 1)) (I : (unit n k hk).Cell) :
    ∏ b, (hi I (a.succAbove b) - lo I (a.succAbove b)) = (1 / k : ℝ) ^ n := by
  rw [prod_congr rfl fun b _ => show hi I (a.succAbove b) - lo I (a.succAbove b) = 1 / k from unit_step hk (I (a.succAbove b))]
  rw [prod_const, card_univ, Fintype.card_fin]

theorem sum_cells_const (c : ℝ) : ∑ _a : Fin (n + 1), ∑ _I : (unit n k hk).Cell, c * ((1 / k) * (1 / k) ^ n) = (n + 1) * c := by
  have hk' : (k:ℝ) ≠ 0 := by exact_mod_cast hk.ne'
  have hc : Fintype.card (unit n k hk).Cell = k ^ (n + 1) := by
    rw [Fintype.card_pi]
    change ∏ _i : Fin (n + 1), Fintype.card (Fin k) = _
    simp only [Fintype.card_fin, prod_const, card_univ]
  rw [sum_const, sum_const, card_univ, card_univ, hc, Fintype.card_fin, nsmul_eq_mul, nsmul_eq_mul]
  push_cast
  rw [← pow_succ', one_div, inv_pow]
  field_simp

theorem flux_le {v : (unit n k hk).Broken} {c : ℝ} (h : ∀ b I, ∀ y ∈ Set.Icc (lo I) (hi I), |(AnaD.pd b (v I)).1 y| ≤ c) :
    (unit n k hk).flux v v ≤ (n + 1) * (2 * √(n + 1) * c ^ 2) := by
  rw [flux_apply, ← sum_cells_const (hk := hk)]
  refine sum_le_sum fun a _ => sum_le_sum fun I _ => ?_
  have hd := (unit n k hk).diam_pos I
  have key : ∀ s, lo I a ≤ s → s ≤ hi I a → diam I * (unit n k hk).faceInt a s I (AnaD.pd a (v I)).1 (AnaD.pd a (v I)).1
      ≤ √(n + 1) * c ^ 2 * ((1 / k) * (1 / k) ^ n) := by
    intro s h1 h2
    have := (unit n k hk).faceInt_le a s I (f := AnaD.pd a (v I)) (c := c) fun y hy => h a I _ ((unit n k hk).facet_mem I a h1 h2 hy)
    rw [facet_vol] at this
    refine (mul_le_mul_of_nonneg_left this hd.le).trans (le_of_eq ?_)
    rw [unit_diam]
    ring
  have h0 : 0 ≤ √((n:ℝ) + 1) * c ^ 2 * ((1 / k) * (1 / k) ^ n) := by positivity
  have hlt := ((unit n k hk).lo_lt_hi I a).le
  have e1 : (if (I a).1 + 1 = ((unit n k hk).axis a).n then
      diam I * (unit n k hk).faceInt a (hi I a) I (AnaD.pd a (v I)).1 (AnaD.pd a (v I)).1 else 0) ≤ √(n + 1) * c ^ 2 * ((1 / k) * (1 / k) ^ n) := by
    split
    · exact key _ hlt le_rfl
    · exact h0
  have e2 : (if (I a).1 = 0 then
      diam I * (unit n k hk).faceInt a (lo I a) I (AnaD.pd a (v I)).1 (AnaD.pd a (v I)).1 else 0) ≤ √(n + 1) * c ^ 2 * ((1 / k) * (1 / k) ^ n) := by
    split
    · exact key _ le_rfl hlt
    · exact h0
  linarith

theorem ghost_le {v : (unit n k hk).Broken} {c : ℝ} (h : ∀ b I, ∀ y ∈ Set.Icc (lo I) (hi I), |(AnaD.pd b (v I)).1 y| ≤ c) :
    (unit n k hk).space.ghost v v ≤ (n + 1) * (4 * (n + 1) * √(n + 1) * c ^ 2) := by
  rw [space_ghost, ← sum_cells_const (hk := hk)]
  refine sum_le_sum fun a _ => sum_le_sum fun I _ => ?_
  split
  · rename_i hI
    have hlt := ((unit n k hk).lo_lt_hi I a).le
    have key : ∀ b, (unit n k hk).faceInt a (hi I a) I ((unit n k hk).jump a I hI b v).1 ((unit n k hk).jump a I hI b v).1
        ≤ (2 * c) ^ 2 * (1 / k) ^ n := by
      intro b
      have := (unit n k hk).faceInt_le a (hi I a) I (f := (unit n k hk).jump a I hI b v) (c := 2 * c) fun y hy => by
        have p1 := h b I _ ((unit n k hk).facet_mem I a hlt le_rfl hy)
        have hN : ((unit n k hk).next a I hI) a = ⟨I a + 1, hI⟩ := Function.update_self ..
        have hM : ∀ j, ((unit n k hk).next a I hI) (a.succAbove j) = I (a.succAbove j) := fun j => Function.update_of_ne (Fin.succAbove_ne a j) ..
        have e1 : a.removeNth (lo ((unit n k hk).next a I hI)) = a.removeNth (lo I) := by
          funext j; simp only [Fin.removeNth, lo, hM]
        have e2 : a.removeNth (hi ((unit n k hk).next a I hI)) = a.removeNth (hi I) := by
          funext j; simp only [Fin.removeNth, hi, hM]
        have e3 : lo ((unit n k hk).next a I hI) a = hi I a := by simp only [lo, hi, hN]
        have p2 := h b (next a I hI) _ ((unit n k hk).facet_mem (next a I hI) a (s := hi I a) (y := y) e3.le
          (e3 ▸ ((unit n k hk).lo_lt_hi _ a).le) (by rw [e1, e2]; exact hy))
        change |(AnaD.pd b (v I)).1 _ - (AnaD.pd b (v (next a I hI))).1 _| ≤ _
        refine (abs_sub _ _).trans ?_
        linarith
      rwa [facet_vol] at this
    rw [unit_diam, unit_diam]
    refine (mul_le_mul_of_nonneg_left (sum_le_sum fun b _ => key b) (by positivity)).trans (le_of_eq ?_)
    rw [sum_const, card_univ, Fintype.card_fin, nsmul_eq_mul]
    push_cast
    ring
  · positivity

/-! #### Boundary values, Laplacian, cell diameter, data domain -/

theorem sin_ends (a : Fin (n + 1)) : anaPi.1 (((unit n k hk).axis a).x 0) = 0 ∧ anaPi.1 (((unit n k hk).axis a).x ((unit n k hk).axis a).n) = 0 := by
  rw [(unit_ends a).1, (unit_ends a).2, anaPi_apply, anaPi_apply]
  simp

theorem pen_prod {v : (unit n k hk).Broken} {p : (I : (unit n k hk).Cell) → Fin (n + 1) → Ana} (hv : ∀ I, v I = AnaD.prod (p I))
    (h0 : ∀ I a, (p I a).1 (lo I a) = anaPi.1 (lo I a)) (h1 : ∀ I a, (p I a).1 (hi I a) = anaPi.1 (hi I a)) (w : (unit n k hk).Broken) :
    (unit n k hk).space.pen v w = 0 := by
  refine pen_zero _ (fun a I hI y => ?_) (fun a I hI y => ?_) w
  · rw [hv, AnaD.prod_apply, prod_eq_zero (mem_univ a)]
    rw [Fin.insertNth_apply_same, h1, hi, hI]
    exact (sin_ends a).2
  · rw [hv, AnaD.prod_apply, prod_eq_zero (mem_univ a)]
    rw [Fin.insertNth_apply_same, h0, lo, hI]
    exact (sin_ends a).1

theorem pen_boxS (w : (unit n k hk).Broken) : (unit n k hk).space.pen (boxS hk) w = 0 :=
  pen_prod (p := fun _ _ => anaPi) (fun _ => rfl) (fun _ _ => rfl) (fun _ _ => rfl) w

theorem pen_boxI (w : (unit n k hk).Broken) : (unit n k hk).space.pen (boxI hk) w = 0 :=
  pen_prod (p := fun I a => piI hk (I a)) boxI_apply (fun I a => (piI_node hk (I a)).1) (fun I a => (piI_node hk (I a)).2) w

theorem ghost_boxS (w : (unit n k hk).Broken) : (unit n k hk).space.ghost (boxS hk) w = 0 := by
  rw [space_ghost]
  refine sum_eq_zero fun a _ => sum_eq_zero fun I _ => ?_
  split
  · rename_i hI
    have : ∀ b, (unit n k hk).jump a I hI b (boxS hk) = 0 := fun b => sub_self _
    simp only [this, faceInt]
    rw [sum_eq_zero fun b _ => ?_, mul_zero]
    have z : ∀ x : Fin (n + 1) → ℝ, ((0 : AnaD (n + 1))).1 x = 0 := fun _ => rfl
    simp only [z, zero_mul, MeasureTheory.integral_zero]
  · rfl

theorem lap_boxS : (unit n k hk).space.lap (boxS hk) = (-((n + 1) * π ^ 2)) • boxS hk := by
  funext I
  change (∑ b, ((AnaD.pd b).comp (AnaD.pd b)).comp (LinearMap.proj I)) (boxS hk) = _
  rw [LinearMap.sum_apply]
  have e : ∀ b : Fin (n + 1), AnaD.pd b (AnaD.pd b (AnaD.prod fun _ => anaPi)) = (-π ^ 2) • AnaD.prod fun _ => anaPi := by
    intro b
    rw [AnaD.pd2_prod, anaPi_deriv2]
    refine Subtype.ext (funext fun x => ?_)
    rw [AnaD.prod_update]
    change (-π ^ 2 * anaPi.1 (x b)) * _ = -π ^ 2 * (AnaD.prod fun _ => anaPi).1 x
    rw [AnaD.prod_split _ b]
    ring
  change ∑ b, AnaD.pd b (AnaD.pd b (AnaD.prod fun _ => anaPi)) = (-((n + 1) * π ^ 2)) • AnaD.prod fun _ => anaPi
  rw [sum_congr rfl fun b _ => e b, sum_const, card_univ, Fintype.card_fin, ← Nat.cast_smul_eq_nsmul ℝ, smul_smul]
  congr 1
  push_cast
  ring

theorem h2_unit (v : (unit n k hk).Broken) : (unit n k hk).space.h2 v v = (n + 1) * (1 / k) ^ 2 * (unit n k hk).space.mass v v := by
  rw [space_h2, space_mass, mul_sum]
  refine sum_congr rfl fun I _ => ?_
  rw [unit_diam, div_pow, sq_sqrt (by positivity)]
  ring

theorem omega_unit (u v : (unit n k hk).Broken) : (unit n k hk).space.omega (unit n k hk).space.one u v = (unit n k hk).space.mass u v := by
  rw [space_omega, space_mass]
  refine sum_congr rfl fun I _ => ?_
  have : ∀ y, ((unit n k hk).space.one I).1 y = 1 := fun _ => rfl
  simp only [this, one_mul]

end
end Grid
end Dxss
