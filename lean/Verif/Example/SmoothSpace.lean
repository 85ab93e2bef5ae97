import Verif.Spec.Load
import Mathlib.Analysis.Calculus.ContDiff.Operations
import Mathlib.Analysis.SpecialFunctions.Trigonometric.Deriv
import Mathlib.MeasureTheory.Integral.IntervalIntegral.IntegrationByParts

/-!
# Smooth functions on the unit interval

The interval `[0,1]` as one element with `h = 1`, and all smooth functions on it: the integrands are the
genuine ones, and the solution of the 1D script is one of the functions.  Used only to show that the
hypotheses about exact solutions can be met.
-/

namespace Dxss.Example

/-- Smooth functions of one variable. -/
def Smooth : Submodule ℝ (ℝ → ℝ) where
  carrier := {f | ContDiff ℝ (⊤ : ℕ∞) f}
  add_mem' {f g} ha hb := show ContDiff ℝ (⊤ : ℕ∞) (f + g) from ContDiff.add (Set.mem_setOf.1 ha) (Set.mem_setOf.1 hb)
  zero_mem' := show ContDiff ℝ (⊤ : ℕ∞) (fun _ => (0:ℝ)) from contDiff_const
  smul_mem' c f hf := show ContDiff ℝ (⊤ : ℕ∞) (c • f) from ContDiff.const_smul c (Set.mem_setOf.1 hf)

theorem mem_smooth {f : ℝ → ℝ} (h : ContDiff ℝ (⊤ : ℕ∞) f) : f ∈ Smooth := Set.mem_setOf.2 h
theorem smC (f : Smooth) : ContDiff ℝ (⊤ : ℕ∞) f.1 := Set.mem_setOf.1 f.2
theorem smCont (f : Smooth) : Continuous f.1 := (smC f).continuous
theorem smDiff (f : Smooth) : Differentiable ℝ f.1 := (smC f).differentiable (by simp)

noncomputable def sderiv : Smooth →ₗ[ℝ] Smooth where
  toFun f := ⟨deriv f.1, mem_smooth (contDiff_infty_iff_deriv.1 (smC f)).2⟩
  map_add' f g := Subtype.ext (funext fun x => deriv_add (smDiff f x) (smDiff g x))
  map_smul' c f := Subtype.ext (funext fun x => deriv_const_smul c (smDiff f x))

noncomputable def smul' : Smooth →ₗ[ℝ] Smooth →ₗ[ℝ] Smooth :=
  LinearMap.mk₂ ℝ (fun f g => ⟨fun x => f.1 x * g.1 x, mem_smooth ((smC f).mul (smC g))⟩)
    (fun f f' g => Subtype.ext (funext fun x => add_mul _ _ _))
    (fun c f g => Subtype.ext (funext fun x => mul_assoc _ _ _))
    (fun f g g' => Subtype.ext (funext fun x => mul_add _ _ _))
    (fun c f g => Subtype.ext (funext fun x => mul_left_comm _ _ _))

noncomputable def sint : Smooth →ₗ[ℝ] ℝ where
  toFun f := ∫ x in (0:ℝ)..1, f.1 x
  map_add' f g := intervalIntegral.integral_add ((smCont f).intervalIntegrable _ _) ((smCont g).intervalIntegrable _ _)
  map_smul' c f := intervalIntegral.integral_const_mul _ _

noncomputable def sev (a : ℝ) : Smooth →ₗ[ℝ] ℝ where
  toFun f := f.1 a
  map_add' _ _ := rfl
  map_smul' _ _ := rfl

noncomputable def smass : Smooth →ₗ[ℝ] Smooth →ₗ[ℝ] ℝ := smul'.compr₂ sint
noncomputable def sat (a : ℝ) : Smooth →ₗ[ℝ] Smooth →ₗ[ℝ] ℝ := (LinearMap.mul ℝ ℝ).compl₁₂ (sev a) (sev a)

theorem smul'_comm (f g : Smooth) : smul' f g = smul' g f := Subtype.ext (funext fun _ => mul_comm _ _)
theorem smul'_left_comm (f g h : Smooth) : smul' f (smul' g h) = smul' g (smul' f h) :=
  Subtype.ext (funext fun _ => mul_left_comm _ _ _)

noncomputable def smoothSpace : Space Smooth where
  mass := smass
  stiff := smass.compl₁₂ sderiv sderiv
  nit := (sat 1).compl₁₂ sderiv LinearMap.id - (sat 0).compl₁₂ sderiv LinearMap.id
  pen := sat 0 + sat 1
  ghost := 0
  h2 := smass
  omega := smul'.compr₂ smass
  lap := sderiv ∘ₗ sderiv
  one := ⟨fun _ => 1, mem_smooth contDiff_const⟩
  mass_symm u w := by simp [smass, smul'_comm u w]
  stiff_symm u w := by simp [smass, smul'_comm (sderiv u)]
  pen_symm u w := by simp [sat, mul_comm]
  ghost_symm u w := rfl
  h2_symm u w := by simp [smass, smul'_comm u w]
  omega_symm i u w := by
    simp only [LinearMap.compr₂_apply, smass]
    rw [smul'_comm i u, smul'_comm _ w, smul'_left_comm w, smul'_comm w i, smul'_comm u]

theorem smoothSpace_mass (u w : Smooth) : smoothSpace.mass u w = ∫ x in (0:ℝ)..1, u.1 x * w.1 x := rfl
theorem smoothSpace_stiff (u w : Smooth) :
    smoothSpace.stiff u w = ∫ x in (0:ℝ)..1, deriv u.1 x * deriv w.1 x := rfl
theorem smoothSpace_nit (u w : Smooth) :
    smoothSpace.nit u w = deriv u.1 1 * w.1 1 - deriv u.1 0 * w.1 0 := rfl

/-- Green's formula. -/
theorem smooth_green (u w : Smooth) :
    smoothSpace.stiff u w - smoothSpace.nit u w = - smoothSpace.mass (smoothSpace.lap u) w := by
  have h := intervalIntegral.integral_mul_deriv_eq_deriv_mul (a := 0) (b := 1) (u := deriv u.1) (v := w.1)
    (u' := deriv (deriv u.1)) (v' := deriv w.1)
    (fun x _ => (smDiff (sderiv u) x).hasDerivAt) (fun x _ => (smDiff w x).hasDerivAt)
    ((smCont (sderiv (sderiv u))).intervalIntegrable _ _) ((smCont (sderiv w)).intervalIntegrable _ _)
  rw [smoothSpace_stiff, smoothSpace_nit, h, smoothSpace_mass]
  change _ = -∫ x in (0:ℝ)..1, deriv (deriv u.1) x * w.1 x
  ring

/-- `sin(2πx)`. -/
noncomputable def mode : Smooth := ⟨fun x => Real.sin (2 * Real.pi * x),
  mem_smooth (Real.contDiff_sin.comp (contDiff_const.mul contDiff_id))⟩

theorem lap_mode : smoothSpace.lap mode = (-(2 * Real.pi) ^ 2) • mode := by
  refine Subtype.ext (funext fun x => ?_)
  change deriv (deriv fun x => Real.sin (2 * Real.pi * x)) x = -(2 * Real.pi) ^ 2 * Real.sin (2 * Real.pi * x)
  have h0 : ∀ y, HasDerivAt (fun x => 2 * Real.pi * x) (2 * Real.pi) y := fun y => by
    simpa using (hasDerivAt_id y).const_mul (2 * Real.pi)
  have h1 : deriv (fun x => Real.sin (2 * Real.pi * x)) = fun x => Real.cos (2 * Real.pi * x) * (2 * Real.pi) :=
    funext fun y => (h0 y).sin.deriv
  rw [h1, ((h0 x).cos.mul_const (2 * Real.pi)).deriv]
  ring

/-- The standing wave `cos(2πt) sin(2πx)` with its time derivatives. -/
noncomputable def standing : Spec.Path Smooth where
  u1 t := Real.cos (2 * Real.pi * t) • mode
  u2 t := (-2 * Real.pi * Real.sin (2 * Real.pi * t)) • mode
  du1 t := (-2 * Real.pi * Real.sin (2 * Real.pi * t)) • mode
  du2 t := (-(2 * Real.pi) ^ 2 * Real.cos (2 * Real.pi * t)) • mode

theorem standing_solution (Y : Submodule ℝ Smooth) (T : Set ℝ) : Spec.WaveSolution smoothSpace Y standing T := by
  have hl : ∀ t, standing.du2 t = smoothSpace.lap (standing.u1 t) := fun t => by
    simp only [standing, map_smul, lap_mode, smul_smul]; congr 1; ring
  refine ⟨fun t _ => rfl, fun t _ y _ => ?_, fun t _ y => ?_, fun t _ y => ?_, fun t _ y => rfl⟩
  · have := smooth_green (standing.u1 t) y
    rw [hl]; linarith
  · rw [hl, sub_self, map_zero, LinearMap.zero_apply]
  · have h0 : mode.1 0 = 0 := by simp [mode]
    have h1 : mode.1 1 = 0 := by simp [mode, Real.sin_two_pi]
    change (Real.cos (2 * Real.pi * t) * mode.1 0) * y.1 0 + (Real.cos (2 * Real.pi * t) * mode.1 1) * y.1 1 = 0
    rw [h0, h1]; ring

end Dxss.Example
