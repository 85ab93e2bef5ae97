import Verif.Example.SmoothSpace
import Verif.Props.Forms
import Verif.Lemmas.Kernel

/-!
# A three-dimensional space of smooth functions

`(a, b, c)` stands for `a + b x + c sin(2πx)` on the unit interval.  It contains the linear elements, the
solution of the 1D script, and is small enough for the mass form to be definite.
-/

namespace Dxss.Example

abbrev V3 := ℝ × ℝ × ℝ

noncomputable def ι : V3 →ₗ[ℝ] Smooth where
  toFun v := ⟨fun x => v.1 + v.2.1 * x + v.2.2 * Real.sin (2 * Real.pi * x), mem_smooth
    ((contDiff_const.add (contDiff_const.mul contDiff_id)).add
      (contDiff_const.mul (Real.contDiff_sin.comp (contDiff_const.mul contDiff_id))))⟩
  map_add' v w := Subtype.ext (funext fun x => by simp; ring)
  map_smul' c v := Subtype.ext (funext fun x => by simp; ring)

theorem ι_apply (v : V3) (x : ℝ) : (ι v).1 x = v.1 + v.2.1 * x + v.2.2 * Real.sin (2 * Real.pi * x) := rfl

noncomputable def lap3 : V3 →ₗ[ℝ] V3 where
  toFun v := (0, 0, -(2 * Real.pi) ^ 2 * v.2.2)
  map_add' v w := by ext <;> simp; ring
  map_smul' c v := by ext <;> simp; ring

theorem ι_lap (v : V3) : ι (lap3 v) = smoothSpace.lap (ι v) := by
  have e : ι v = v.1 • (⟨fun _ => 1, mem_smooth contDiff_const⟩ : Smooth)
      + v.2.1 • (⟨fun x => x, mem_smooth contDiff_id⟩ : Smooth) + v.2.2 • mode := by
    refine Subtype.ext (funext fun x => ?_)
    simp [ι_apply, mode]
  have h1 : smoothSpace.lap (⟨fun _ => 1, mem_smooth contDiff_const⟩ : Smooth) = 0 := by
    refine Subtype.ext (funext fun x => ?_)
    change deriv (deriv fun _ => (1:ℝ)) x = 0
    simp
  have h2 : smoothSpace.lap (⟨fun x => x, mem_smooth contDiff_id⟩ : Smooth) = 0 := by
    refine Subtype.ext (funext fun x => ?_)
    change deriv (deriv fun x : ℝ => x) x = 0
    have : (deriv fun x : ℝ => x) = fun _ => 1 := funext fun x => deriv_id x
    rw [this]; simp
  rw [e, map_add, map_add, map_smul, map_smul, map_smul, h1, h2, lap_mode]
  refine Subtype.ext (funext fun x => ?_)
  simp [ι_apply, lap3, mode]
  ring

/-- Restriction of the integrands on smooth functions. -/
noncomputable def modeSpace : Space V3 where
  mass := smoothSpace.mass.compl₁₂ ι ι
  stiff := smoothSpace.stiff.compl₁₂ ι ι
  nit := smoothSpace.nit.compl₁₂ ι ι
  pen := smoothSpace.pen.compl₁₂ ι ι
  ghost := smoothSpace.ghost.compl₁₂ ι ι
  h2 := smoothSpace.h2.compl₁₂ ι ι
  omega := LinearMap.mk₂ ℝ (fun i u => (smoothSpace.omega (ι i) (ι u)).comp ι)
    (fun i i' u => by ext <;> simp) (fun c i u => by ext <;> simp)
    (fun i u u' => by ext <;> simp) (fun c i u => by ext <;> simp)
  lap := lap3
  one := (1, 0, 0)
  mass_symm u w := smoothSpace.mass_symm (ι u) (ι w)
  stiff_symm u w := smoothSpace.stiff_symm (ι u) (ι w)
  pen_symm u w := smoothSpace.pen_symm (ι u) (ι w)
  ghost_symm u w := smoothSpace.ghost_symm (ι u) (ι w)
  h2_symm u w := smoothSpace.h2_symm (ι u) (ι w)
  omega_symm i u w := smoothSpace.omega_symm (ι i) (ι u) (ι w)

theorem modeSpace_mass (u w : V3) : modeSpace.mass u w = ∫ x in (0:ℝ)..1, (ι u).1 x * (ι w).1 x := rfl

theorem int_sq_nonneg (f : ℝ → ℝ) : 0 ≤ ∫ x in (0:ℝ)..1, f x * f x :=
  intervalIntegral.integral_nonneg zero_le_one fun _ _ => mul_self_nonneg _

theorem modeSpace_psd : modeSpace.Psd (1, 0, 0) where
  mass v := int_sq_nonneg _
  stiff v := int_sq_nonneg _
  pen v := by
    change 0 ≤ (ι v).1 0 * (ι v).1 0 + (ι v).1 1 * (ι v).1 1
    nlinarith [mul_self_nonneg ((ι v).1 0), mul_self_nonneg ((ι v).1 1)]
  ghost v := le_rfl
  h2 v := int_sq_nonneg _
  omega v := by
    change 0 ≤ ∫ x in (0:ℝ)..1, (ι (1, 0, 0)).1 x * (ι v).1 x * (ι v).1 x
    simpa [ι_apply] using int_sq_nonneg (ι v).1

theorem eq_zero_of_mass {v : V3} (h : ∫ x in (0:ℝ)..1, (ι v).1 x * (ι v).1 x = 0) : v = 0 := by
  have hz : ∀ t ∈ Set.Icc (0:ℝ) 1, (ι v).1 t = 0 := by
    by_contra hcon
    push Not at hcon
    obtain ⟨c, hc, hne⟩ := hcon
    have : 0 < ∫ x in (0:ℝ)..1, (ι v).1 x * (ι v).1 x :=
      intervalIntegral.integral_pos one_pos ((smCont _).mul (smCont _)).continuousOn
        (fun x _ => mul_self_nonneg _) ⟨c, hc, mul_self_pos.2 hne⟩
    exact this.ne' h
  have e0 := hz 0 (by norm_num)
  have e1 := hz 1 (by norm_num)
  have e2 := hz (1 / 4) (by norm_num)
  rw [ι_apply] at e0 e1 e2
  rw [show 2 * Real.pi * (1 / 4) = Real.pi / 2 by ring, Real.sin_pi_div_two] at e2
  simp [Real.sin_two_pi] at e0 e1
  have e3 : v.2.1 = 0 := by linarith
  have e4 : v.2.2 = 0 := by rw [e0, e3] at e2; linarith
  exact Prod.ext e0 (Prod.ext e3 e4)

theorem modeSpace_definite : modeSpace.Definite := ⟨fun _ h => eq_zero_of_mass h, fun _ h => eq_zero_of_mass h⟩

/-- The solution of the 1D script, `cos(2πt) sin(2πx)`. -/
noncomputable def wave3 : Spec.Path V3 where
  u1 t := Real.cos (2 * Real.pi * t) • (0, 0, 1)
  u2 t := (-2 * Real.pi * Real.sin (2 * Real.pi * t)) • (0, 0, 1)
  du1 t := (-2 * Real.pi * Real.sin (2 * Real.pi * t)) • (0, 0, 1)
  du2 t := (-(2 * Real.pi) ^ 2 * Real.cos (2 * Real.pi * t)) • (0, 0, 1)

theorem wave3_solution (Y : Submodule ℝ V3) (T : Set ℝ) : Spec.WaveSolution modeSpace Y wave3 T := by
  have hι : ι (0, 0, 1) = mode := Subtype.ext (funext fun x => by simp [ι_apply, mode])
  have h := standing_solution ⊤ T
  refine ⟨fun t _ => rfl, fun t ht y _ => ?_, fun t ht y => ?_, fun t ht y => ?_, fun t ht y => rfl⟩
  · have := h.weak t ht (ι y) trivial
    change smoothSpace.mass (ι _) (ι y) + smoothSpace.stiff (ι _) (ι y) - smoothSpace.nit (ι _) (ι y) = 0
    simp only [wave3, map_smul, hι]
    simpa [standing] using this
  · have := h.strong t ht (ι y)
    change smoothSpace.h2 (ι (_ - lap3 _)) (ι y) = 0
    rw [map_sub, ι_lap]
    simp only [wave3, map_smul, hι]
    simpa [standing] using this
  · have := h.dirichlet t ht (ι y)
    change smoothSpace.pen (ι _) (ι y) = 0
    simp only [wave3, map_smul, hι]
    simpa [standing] using this

end Dxss.Example
