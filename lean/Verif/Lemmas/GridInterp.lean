import Verif.Lemmas.GridGreen
import Verif.Lemmas.Sine1

/-!
# Products of functions of one coordinate on a grid, their interpolants by multilinear elements; the boundary flux
-/

namespace Dxss
open Finset MeasureTheory

/-! ### Products -/

/-- The product of functions of one coordinate. -/
noncomputable def AnaD.prod {d : ℕ} (f : Fin d → Ana) : AnaD d :=
  ⟨fun x => ∏ a, (f a).1 (x a), AnaD.mem <| Finset.analyticOnNhd_fun_prod _ fun a _ =>
    (anaA (f a)).comp ((ContinuousLinearMap.proj (R := ℝ) (φ := fun _ : Fin d => ℝ) a).analyticOnNhd Set.univ) fun _ _ => trivial⟩

namespace AnaD
variable {d n : ℕ}

theorem prod_apply (f : Fin d → Ana) (x : Fin d → ℝ) : (prod f).1 x = ∏ a, (f a).1 (x a) := rfl

theorem prod_split (f : Fin d → Ana) (b : Fin d) (x : Fin d → ℝ) :
    (prod f).1 x = (f b).1 (x b) * ∏ a ∈ univ.erase b, (f a).1 (x a) := (mul_prod_erase univ _ (mem_univ b)).symm

theorem prod_update (f : Fin d → Ana) (b : Fin d) (g : Ana) (x : Fin d → ℝ) :
    (prod (Function.update f b g)).1 x = g.1 (x b) * ∏ a ∈ univ.erase b, (f a).1 (x a) := by
  rw [prod_split _ b, Function.update_self]
  refine congrArg _ (prod_congr rfl fun a ha => ?_)
  rw [Function.update_of_ne (ne_of_mem_erase ha)]

theorem pd_prod (f : Fin (n + 1) → Ana) (b : Fin (n + 1)) : pd b (prod f) = prod (Function.update f b (anaDeriv (f b))) := by
  refine Subtype.ext (funext fun x => ?_)
  have h := line_deriv b (b.removeNth x) (prod f) (x b)
  rw [Fin.insertNth_self_removeNth] at h
  rw [← h, prod_update]
  have e : (line b (b.removeNth x) (prod f)).1 = fun s => (f b).1 s * ∏ a ∈ univ.erase b, (f a).1 (x a) := by
    funext s
    change (prod f).1 (b.insertNth s (b.removeNth x)) = _
    rw [prod_split _ b, Fin.insertNth_apply_same]
    refine congrArg _ (prod_congr rfl fun a ha => ?_)
    obtain ⟨j, rfl⟩ := Fin.exists_succAbove_eq (ne_of_mem_erase ha)
    rw [Fin.insertNth_apply_succAbove]; rfl
  rw [e]
  exact ((anaDiff (f b) (x b)).hasDerivAt.mul_const _).deriv

theorem pd2_prod (f : Fin (n + 1) → Ana) (b : Fin (n + 1)) :
    pd b (pd b (prod f)) = prod (Function.update f b (anaDeriv (anaDeriv (f b)))) := by
  rw [pd_prod, pd_prod, Function.update_self, Function.update_idem]

end AnaD

theorem prod_abs_le {ι : Type*} (s : Finset ι) {f : ι → ℝ} (hf : ∀ a ∈ s, |f a| ≤ 1) : |∏ a ∈ s, f a| ≤ 1 := by
  rw [abs_prod]
  exact prod_le_one (fun _ _ => abs_nonneg _) hf

theorem prod_diff_le {ι : Type*} [DecidableEq ι] (s : Finset ι) {f p : ι → ℝ} {c : ℝ} (hf : ∀ a ∈ s, |f a| ≤ 1) (hp : ∀ a ∈ s, |p a| ≤ 1)
    (h : ∀ a ∈ s, |f a - p a| ≤ c) : |∏ a ∈ s, f a - ∏ a ∈ s, p a| ≤ s.card * c := by
  induction s using Finset.induction_on with
  | empty => simp
  | insert a s ha ih =>
    rw [prod_insert ha, prod_insert ha, card_insert_of_notMem ha]
    have hs := ih (fun b hb => hf b (mem_insert_of_mem hb)) (fun b hb => hp b (mem_insert_of_mem hb)) fun b hb => h b (mem_insert_of_mem hb)
    have h1 := hf a (mem_insert_self _ _)
    have h2 := h a (mem_insert_self _ _)
    have h3 := prod_abs_le s fun b hb => hp b (mem_insert_of_mem hb)
    have e : f a * ∏ a ∈ s, f a - p a * ∏ a ∈ s, p a = f a * (∏ a ∈ s, f a - ∏ a ∈ s, p a) + (f a - p a) * ∏ a ∈ s, p a := by ring
    rw [e]
    refine (abs_add_le _ _).trans ?_
    rw [abs_mul, abs_mul]
    have k1 := mul_le_mul h1 hs (abs_nonneg _) zero_le_one
    have k2 := mul_le_mul h2 h3 (abs_nonneg _) ((abs_nonneg _).trans h2)
    push_cast
    linarith

/-! ### Norms -/

namespace Grid
variable {n : ℕ} (m : Grid n)

theorem mass_le {v : m.Broken} {c : ℝ} (h : ∀ I, ∀ y ∈ Set.Icc (lo I) (hi I), |(v I).1 y| ≤ c) :
    m.space.mass v v ≤ c ^ 2 * m.space.mass m.space.one m.space.one := by
  rw [space_mass, space_mass, mul_sum]
  refine sum_le_sum fun I _ => ?_
  rw [← integral_const_mul]
  refine setIntegral_mono_on (AnaD.intOn ((AnaD.cont _).mul (AnaD.cont _)) _ _) (AnaD.intOn (((AnaD.cont _).mul (AnaD.cont _)).const_mul _) _ _)
    isCompact_Icc.isClosed.measurableSet fun y hy => ?_
  have h1 : (m.space.one I).1 y = 1 := rfl
  rw [h1, mul_one, mul_one, ← sq, ← sq_abs]
  exact pow_le_pow_left₀ (abs_nonneg _) (h I y hy) 2

theorem stiff_le {v : m.Broken} {c : ℝ} (h : ∀ b I, ∀ y ∈ Set.Icc (lo I) (hi I), |(AnaD.pd b (v I)).1 y| ≤ c) :
    m.space.stiff v v ≤ (n + 1) * (c ^ 2 * m.space.mass m.space.one m.space.one) := by
  rw [stiff_eq]
  refine (sum_le_sum fun b _ => m.mass_le (h b)).trans (le_of_eq ?_)
  rw [sum_const, card_univ, Fintype.card_fin, nsmul_eq_mul]
  push_cast
  ring

theorem faceInt_le (a : Fin (n + 1)) (s : ℝ) (I : m.Cell) {f : AnaD (n + 1)} {c : ℝ}
    (h : ∀ y ∈ Set.Icc (a.removeNth (lo I)) (a.removeNth (hi I)), |f.1 (a.insertNth s y)| ≤ c) :
    m.faceInt a s I f.1 f.1 ≤ c ^ 2 * ∏ b, (hi I (a.succAbove b) - lo I (a.succAbove b)) := by
  have e : ∏ b, (hi I (a.succAbove b) - lo I (a.succAbove b))
      = ∫ y in Set.Icc (a.removeNth (lo I)) (a.removeNth (hi I)), ∏ b : Fin n, (1:ℝ) := by
    have h1 := int_prod (f := fun _ _ => (1:ℝ)) (fun b => (m.lo_lt_hi I (a.succAbove b)).le)
    refine Eq.trans ?_ h1.symm
    exact prod_congr rfl fun b _ => by simp
  rw [e, ← integral_const_mul, faceInt]
  have hc : Continuous fun y : Fin n → ℝ => f.1 (a.insertNth s y) := AnaD.cont (AnaD.face a s f)
  refine setIntegral_mono_on (AnaD.intOn (hc.mul hc) _ _) (AnaD.intOn (continuous_const) _ _)
    isCompact_Icc.isClosed.measurableSet fun y hy => ?_
  rw [prod_const_one, mul_one, ← sq, ← sq_abs]
  exact pow_le_pow_left₀ (abs_nonneg _) (h y hy) 2

/-- Points of a facet of a cell. -/
theorem facet_mem (I : m.Cell) (a : Fin (n + 1)) {s : ℝ} (h1 : lo I a ≤ s) (h2 : s ≤ hi I a) {y : Fin n → ℝ}
    (hy : y ∈ Set.Icc (a.removeNth (lo I)) (a.removeNth (hi I))) : (a.insertNth s y : Fin (n + 1) → ℝ) ∈ Set.Icc (lo I) (hi I) :=
  ⟨Fin.le_insertNth_iff.2 ⟨h1, hy.1⟩, Fin.insertNth_le_iff.2 ⟨h2, hy.2⟩⟩

/-! ### The boundary flux -/

/-- `∑ h ∫ ∂ₙu ∂ₙv` over the facets on the boundary. -/
noncomputable def flux : m.Broken →ₗ[ℝ] m.Broken →ₗ[ℝ] ℝ := ∑ a, ∑ I : m.Cell,
    ((if (I a).1 + 1 = (m.axis a).n then
        diam I • (AnaD.faceL2 a (hi I a) (lo I) (hi I)).compl₁₂ ((AnaD.pd a).comp (m.cell I)) ((AnaD.pd a).comp (m.cell I)) else 0)
      + (if (I a).1 = 0 then
        diam I • (AnaD.faceL2 a (lo I a) (lo I) (hi I)).compl₁₂ ((AnaD.pd a).comp (m.cell I)) ((AnaD.pd a).comp (m.cell I)) else 0))

theorem flux_apply (u w : m.Broken) : m.flux u w = ∑ a, ∑ I : m.Cell,
    ((if (I a).1 + 1 = (m.axis a).n then diam I * m.faceInt a (hi I a) I (AnaD.pd a (u I)).1 (AnaD.pd a (w I)).1 else 0)
      + (if (I a).1 = 0 then diam I * m.faceInt a (lo I a) I (AnaD.pd a (u I)).1 (AnaD.pd a (w I)).1 else 0)) := by
  simp only [flux, LinearMap.sum_apply, LinearMap.add_apply]
  refine sum_congr rfl fun a _ => sum_congr rfl fun I _ => congrArg₂ (· + ·) ?_ ?_ <;> split <;> rfl

theorem flux_nonneg (v : m.Broken) : 0 ≤ m.flux v v := by
  rw [flux_apply]
  refine sum_nonneg fun a _ => sum_nonneg fun I _ => add_nonneg ?_ ?_ <;> split <;>
    first | exact le_rfl | exact mul_nonneg (m.diam_pos I).le (m.faceInt_self_nonneg _ _ _ _)

/-- One facet. -/
theorem facet_sq (a : Fin (n + 1)) (s : ℝ) (I : m.Cell) (f g : AnaD (n + 1)) (r : ℝ) :
    0 ≤ r ^ 2 * (diam I * m.faceInt a s I f.1 f.1) + 2 * r * m.faceInt a s I f.1 g.1 + 1 / diam I * m.faceInt a s I g.1 g.1 := by
  have hd := m.diam_pos I
  have h := m.faceInt_self_nonneg a s I ((diam I * r) • f + g).1
  have e : m.faceInt a s I ((diam I * r) • f + g).1 ((diam I * r) • f + g).1
      = (diam I * r) * ((diam I * r) * m.faceInt a s I f.1 f.1) + (diam I * r) * m.faceInt a s I f.1 g.1
        + ((diam I * r) * m.faceInt a s I f.1 g.1 + m.faceInt a s I g.1 g.1) := by
    change AnaD.faceL2 a s (lo I) (hi I) ((diam I * r) • f + g) ((diam I * r) • f + g) = _
    have hs : AnaD.faceL2 a s (lo I) (hi I) g f = AnaD.faceL2 a s (lo I) (hi I) f g := AnaD.faceL2_symm a s (lo I) (hi I) g f
    simp only [map_add, map_smul, LinearMap.add_apply, LinearMap.smul_apply, smul_eq_mul, hs]
    change _ = (diam I * r) * ((diam I * r) * AnaD.faceL2 a s (lo I) (hi I) f f) + (diam I * r) * AnaD.faceL2 a s (lo I) (hi I) f g
        + ((diam I * r) * AnaD.faceL2 a s (lo I) (hi I) f g + AnaD.faceL2 a s (lo I) (hi I) g g)
    ring
  rw [e] at h
  have := div_nonneg h hd.le
  refine this.trans (le_of_eq ?_)
  field_simp
  ring

theorem flux_bound (v y : m.Broken) : m.space.nit v y ^ 2 ≤ m.flux v v * m.space.pen y y := by
  have key : ∀ r : ℝ, 0 ≤ m.flux v v * (r * r) + 2 * m.space.nit v y * r + m.space.pen y y := by
    intro r
    have e : m.flux v v * (r * r) + 2 * m.space.nit v y * r + m.space.pen y y
        = ∑ a, ∑ I : m.Cell, ((if (I a).1 + 1 = (m.axis a).n then
            r ^ 2 * (diam I * m.faceInt a (hi I a) I (AnaD.pd a (v I)).1 (AnaD.pd a (v I)).1)
              + 2 * r * m.faceInt a (hi I a) I (AnaD.pd a (v I)).1 (y I).1 + 1 / diam I * m.faceInt a (hi I a) I (y I).1 (y I).1 else 0)
          + (if (I a).1 = 0 then
            (-r) ^ 2 * (diam I * m.faceInt a (lo I a) I (AnaD.pd a (v I)).1 (AnaD.pd a (v I)).1)
              + 2 * (-r) * m.faceInt a (lo I a) I (AnaD.pd a (v I)).1 (y I).1 + 1 / diam I * m.faceInt a (lo I a) I (y I).1 (y I).1 else 0)) := by
      rw [flux_apply, space_nit, space_pen, sum_mul, mul_sum, sum_mul, ← sum_add_distrib, ← sum_add_distrib]
      refine sum_congr rfl fun a _ => ?_
      rw [sum_mul, mul_sum, sum_mul, ← sum_add_distrib, ← sum_add_distrib]
      refine sum_congr rfl fun I _ => ?_
      split <;> split <;> ring
    rw [e]
    refine sum_nonneg fun a _ => sum_nonneg fun I _ => add_nonneg ?_ ?_ <;> split <;>
      first | exact le_rfl | exact m.facet_sq _ _ _ _ _ _
  have := discrim_le_zero key
  unfold discrim at this
  linarith [this]

/-! ### Boundary values zero -/

theorem pen_zero {v : m.Broken} (h1 : ∀ (a : Fin (n + 1)) (I : m.Cell), (I a).1 + 1 = (m.axis a).n → ∀ y : Fin n → ℝ, (v I).1 (a.insertNth (hi I a) y) = 0)
    (h0 : ∀ (a : Fin (n + 1)) (I : m.Cell), (I a).1 = 0 → ∀ y : Fin n → ℝ, (v I).1 (a.insertNth (lo I a) y) = 0) (w : m.Broken) :
    m.space.pen v w = 0 := by
  rw [space_pen]
  refine sum_eq_zero fun a _ => sum_eq_zero fun I _ => ?_
  have e1 : (if (I a).1 + 1 = (m.axis a).n then 1 / diam I * m.faceInt a (hi I a) I (v I).1 (w I).1 else 0) = 0 := by
    split
    · rename_i h
      simp only [faceInt, h1 a I h, zero_mul, integral_zero, mul_zero]
    · rfl
  have e2 : (if (I a).1 = 0 then 1 / diam I * m.faceInt a (lo I a) I (v I).1 (w I).1 else 0) = 0 := by
    split
    · rename_i h
      simp only [faceInt, h0 a I h, zero_mul, integral_zero, mul_zero]
    · rfl
  rw [e1, e2, add_zero]

/-! ### Interpolants of products -/

/-- The interpolant of the product of functions of one coordinate: the product of their interpolants. -/
noncomputable def interp (f : Fin (n + 1) → Ana) : m.Broken := fun I => AnaD.prod fun a => (m.axis a).interp (f a) (I a)

theorem interp_sum (f : Fin (n + 1) → Ana) :
    m.interp f = ∑ s : (a : Fin (n + 1)) → Fin ((m.axis a).n + 1), (∏ a, (f a).1 ((m.axis a).x (s a))) • m.hat s := by
  funext I
  refine Subtype.ext (funext fun x => ?_)
  have h1 : ∀ a, (((m.axis a).interp (f a)) (I a)).1 (x a)
      = ∑ j : Fin ((m.axis a).n + 1), (f a).1 ((m.axis a).x j) * ((m.axis a).hat j (I a)).1 (x a) := by
    intro a
    rw [Fin.sum_univ_eq_sum_range (fun j => (f a).1 ((m.axis a).x j) * ((m.axis a).hat j (I a)).1 (x a))]
    simp only [Mesh1.interp, Finset.sum_apply, Submodule.coe_sum, Pi.smul_apply, Submodule.coe_smul, smul_eq_mul]
  change ∏ a, (((m.axis a).interp (f a)) (I a)).1 (x a) = _
  have e2 := prod_univ_sum (fun a => (univ : Finset (Fin ((m.axis a).n + 1))))
    (fun a j => (f a).1 ((m.axis a).x j) * ((m.axis a).hat j (I a)).1 (x a))
  rw [Fintype.piFinset_univ] at e2
  rw [prod_congr rfl fun a _ => h1 a]
  refine e2.trans ?_
  simp only [Finset.sum_apply, Submodule.coe_sum, Pi.smul_apply, Submodule.coe_smul, smul_eq_mul, prod_mul_distrib]
  rfl

theorem interp_mem (f : Fin (n + 1) → Ana) : m.interp f ∈ m.q1.primal := by
  rw [interp_sum]
  refine Submodule.sum_mem _ fun s _ => Submodule.smul_mem _ _ (Submodule.subset_span ⟨finPiFinEquiv s, (finPiFinEquiv s).2, ?_⟩)
  have e : m.q1.bP (finPiFinEquiv s) = m.hat (finPiFinEquiv.symm ⟨finPiFinEquiv s, (finPiFinEquiv s).2⟩) :=
    dif_pos (show (finPiFinEquiv s : ℕ) < m.nodes from (finPiFinEquiv s).2)
  rw [e]
  simp

/-- The Laplacian of a multilinear function. -/
theorem lap_interp (f : Fin (n + 1) → Ana) : m.space.lap (m.interp f) = 0 := by
  funext I
  change (∑ b, ((AnaD.pd b).comp (AnaD.pd b)).comp (LinearMap.proj I)) (m.interp f) = 0
  rw [LinearMap.sum_apply]
  refine sum_eq_zero fun b _ => ?_
  change AnaD.pd b (AnaD.pd b (AnaD.prod _)) = 0
  rw [AnaD.pd2_prod]
  have := (m.axis b).interp_deriv2 (f b) (I b).2
  rw [(m.axis b).cell_apply (I b).2] at this
  refine Subtype.ext (funext fun x => ?_)
  rw [AnaD.prod_update]
  change (anaDeriv (anaDeriv ((m.axis b).interp (f b) (I b)))).1 (x b) * _ = 0
  have e : anaDeriv (anaDeriv ((m.axis b).interp (f b) (I b))) = 0 := this
  rw [e]
  exact zero_mul _

end Grid
end Dxss
