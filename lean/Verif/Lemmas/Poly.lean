import Verif.Model.TimeBasis
import Mathlib.Analysis.SpecialFunctions.Integrals.Basic
import Mathlib.Analysis.Calculus.Deriv.Polynomial
import Mathlib.Tactic.Ring
import Mathlib.Tactic.Linarith
import Mathlib.Tactic.FieldSimp

/-! Coefficient-list polynomials have the intended semantics: evaluation commutes with the
operations, `deriv` is the derivative, `integrate01` the integral over `[0,1]`. -/

namespace Dxss
namespace Poly

/-- evaluation at a real point -/
noncomputable def eval : Poly → ℝ → ℝ
  | [], _ => 0
  | a :: p, t => (a : ℝ) + t * eval p t

@[simp] theorem eval_nil (t : ℝ) : eval [] t = 0 := rfl
@[simp] theorem eval_cons (a : ℚ) (p : Poly) (t : ℝ) : eval (a :: p) t = a + t * eval p t := rfl
@[simp] theorem eval_C (c : ℚ) (t : ℝ) : eval (C c) t = c := by simp [C]
@[simp] theorem eval_X (t : ℝ) : eval X t = t := by simp [X]

@[simp] theorem eval_add (p q : Poly) (t : ℝ) : eval (add p q) t = eval p t + eval q t := by
  induction p generalizing q with
  | nil => simp [add]
  | cons a p ih =>
    cases q with
    | nil => simp [add]
    | cons b q => simp [add, ih]; ring

@[simp] theorem eval_smul (c : ℚ) (p : Poly) (t : ℝ) : eval (smul c p) t = c * eval p t := by
  induction p with
  | nil => simp [smul]
  | cons a p ih =>
    have : smul c (a :: p) = (c * a) :: smul c p := rfl
    rw [this, eval_cons, ih, eval_cons]; push_cast; ring

@[simp] theorem eval_neg (p : Poly) (t : ℝ) : eval (neg p) t = - eval p t := by simp [neg]
@[simp] theorem eval_sub (p q : Poly) (t : ℝ) : eval (sub p q) t = eval p t - eval q t := by
  simp [sub]; ring

@[simp] theorem eval_mul (p q : Poly) (t : ℝ) : eval (mul p q) t = eval p t * eval q t := by
  induction p with
  | nil => simp [mul]
  | cons a p ih => simp [mul, ih]; ring

/-- evaluation as a power sum with exponent offset -/
noncomputable def evalFrom : ℕ → Poly → ℝ → ℝ
  | _, [], _ => 0
  | n, a :: p, t => (a : ℝ) * t ^ n + evalFrom (n + 1) p t

theorem evalFrom_eq (n : ℕ) (p : Poly) (t : ℝ) : evalFrom n p t = t ^ n * eval p t := by
  induction p generalizing n with
  | nil => simp [evalFrom]
  | cons a p ih => simp [evalFrom, ih, pow_succ]; ring

theorem continuous_eval (p : Poly) : Continuous (eval p) := by
  induction p with
  | nil => exact continuous_const
  | cons a p ih => exact continuous_const.add (continuous_id.mul ih)

theorem continuous_evalFrom (n : ℕ) (p : Poly) : Continuous (evalFrom n p) := by
  have : evalFrom n p = fun t => t ^ n * eval p t := funext fun t => evalFrom_eq n p t
  rw [this]; exact (continuous_pow n).mul (continuous_eval p)

theorem integFrom_eq (n : ℕ) (p : Poly) :
    ((integFrom n p : ℚ) : ℝ) = ∫ t in (0:ℝ)..1, evalFrom n p t := by
  induction p generalizing n with
  | nil => simp [integFrom, evalFrom]
  | cons a p ih =>
    have h1 : IntervalIntegrable (fun t : ℝ => (a : ℝ) * t ^ n) MeasureTheory.volume 0 1 :=
      (continuous_const.mul (continuous_pow n)).intervalIntegrable _ _
    have h2 : IntervalIntegrable (evalFrom (n+1) p) MeasureTheory.volume 0 1 :=
      (continuous_evalFrom _ p).intervalIntegrable _ _
    have : (fun t => evalFrom n (a :: p) t)
        = fun t => (a : ℝ) * t ^ n + evalFrom (n + 1) p t := rfl
    simp only [integFrom]
    rw [this, intervalIntegral.integral_add h1 h2, intervalIntegral.integral_const_mul,
      integral_pow, ← ih]
    push_cast
    simp
    ring

/-- `integrate(p, (x, 0, 1))` is the integral of the evaluated polynomial over `[0,1]`. -/
theorem integrate01_eq (p : Poly) : ((integrate01 p : ℚ) : ℝ) = ∫ t in (0:ℝ)..1, eval p t := by
  rw [integrate01, integFrom_eq]
  congr 1; funext t; rw [evalFrom_eq]; simp

theorem hasDerivAt_derivFrom (n : ℕ) (p : Poly) (t : ℝ) :
    HasDerivAt (evalFrom (n + 1) p) (evalFrom n (derivFrom (n + 1) p) t) t := by
  induction p generalizing n with
  | nil => simpa [evalFrom, derivFrom] using hasDerivAt_const t (0:ℝ)
  | cons a p ih =>
    have h1 : HasDerivAt (fun t : ℝ => (a : ℝ) * t ^ (n+1)) ((a:ℝ) * (((n + 1 : ℕ) : ℝ) * t ^ n)) t := by
      simpa using (hasDerivAt_pow (n+1) t).const_mul (a : ℝ)
    have h2 := h1.add (ih (n + 1))
    have e : evalFrom n (derivFrom (n + 1) (a :: p)) t
        = (a:ℝ) * (((n + 1 : ℕ) : ℝ) * t ^ n) + evalFrom (n+1) (derivFrom (n+1+1) p) t := by
      simp only [derivFrom, evalFrom]; push_cast; ring
    rw [e]
    exact h2

/-- `diff(p, x)` is the derivative. -/
theorem hasDerivAt_deriv (p : Poly) (t : ℝ) : HasDerivAt (eval p) (eval (deriv p) t) t := by
  cases p with
  | nil => exact hasDerivAt_const t (0:ℝ)
  | cons a p =>
    have h := (hasDerivAt_derivFrom 0 p t).const_add (a:ℝ)
    have e : (fun t => (a:ℝ) + evalFrom (0+1) p t) = eval (a :: p) := by
      funext t; rw [evalFrom_eq]; simp
    rw [e] at h
    have e2 : evalFrom 0 (derivFrom (0+1) p) t = eval (deriv (a :: p)) t := by
      rw [evalFrom_eq]; simp [deriv]
    rwa [e2] at h

end Poly
end Dxss
