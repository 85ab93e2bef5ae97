import Verif.Spec.Variational

/-!
# Specification of the right-hand side and of the exact solution

The data functional of the method, with the integral over a slab replaced by an arbitrary
approximation `Q`, and the space-time form evaluated at functions of time that need not be discrete.
-/

namespace Dxss.Spec
open Finset
variable {V : Type} [AddCommGroup V] [Module ℝ V]

/-- `∫` over slab `n`. -/
noncomputable def slabInt (dt : ℝ) (n : ℕ) (f : ℝ → ℝ) : ℝ := ∫ t in (n * dt)..((n + 1 : ℕ) * dt), f t

/-- The data functional: misfit weight times the measured data `D.sol` tested with the primal test
function on the data domain, approximated slab by slab with `Q`, plus (well-posed problems) the
initial data. -/
noncomputable def load (S : Space V) (D : Disc V) (ind u10 u20 : V) (Q : ℕ → (ℝ → ℝ) → ℝ) (W : Field V) : ℝ :=
  ∑ n ∈ range D.N, D.gData * Q n (fun t => S.omega ind (D.sol t) (val D.q D.dt n (W 0) t))
    + if D.wellPosed ∧ 0 < D.N then
        D.gJump * jumpForm S D.dt u10 u20 (val D.q D.dt 0 (W 0) 0) (val D.q D.dt 0 (W 1) 0)
      else 0

/-- A pair of functions of time with their time derivatives. -/
structure Path (V : Type) where
  u1 : ℝ → V
  u2 : ℝ → V
  du1 : ℝ → V
  du2 : ℝ → V

/-- The space-time form at a path that is continuous in time (no interface terms) and vanishing dual
variable, tested with a discrete `W`. -/
noncomputable def pathForm (S : Space V) (D : Disc V) (ind : V) (u : Path V) (W : Field V) : ℝ :=
  ∑ n ∈ range D.N, slabInt D.dt n (fun t =>
    wave S (u.u1 t) (u.u2 t) (u.du1 t) (u.du2 t)
        (val D.qstar D.dt n (W 2) t) (val D.qstar D.dt n (W 3) t)
      + D.gData * S.omega ind (u.u1 t) (val D.q D.dt n (W 0) t)
      + D.gPrimal * primalStab S D.lam (u.u1 t) (u.u2 t) (u.du1 t) (u.du2 t)
          (val D.q D.dt n (W 0) t) (val D.q D.dt n (W 1) t)
          (valDt D.q D.dt n (W 0) t) (valDt D.q D.dt n (W 1) t))
    + if D.wellPosed ∧ 0 < D.N then
        D.gJump * jumpForm S D.dt (u.u1 0) (u.u2 0) (val D.q D.dt 0 (W 0) 0) (val D.q D.dt 0 (W 1) 0)
      else 0

/-- The wave equation with homogeneous Dirichlet values, in the terms the method penalises: `u2 = ∂t u1`,
`∂t u2 = Δ u1` weakly (tested with the functions in `Y`, boundary flux included) and elementwise,
zero boundary values, continuous normal derivative. -/
structure WaveSolution (S : Space V) (Y : Submodule ℝ V) (u : Path V) (T : Set ℝ) : Prop where
  vel : ∀ t ∈ T, u.du1 t = u.u2 t
  weak : ∀ t ∈ T, ∀ y ∈ Y, S.mass (u.du2 t) y + S.stiff (u.u1 t) y - S.nit (u.u1 t) y = 0
  strong : ∀ t ∈ T, ∀ y, S.h2 (u.du2 t - S.lap (u.u1 t)) y = 0
  dirichlet : ∀ t ∈ T, ∀ y, S.pen (u.u1 t) y = 0
  smooth : ∀ t ∈ T, ∀ y, S.ghost (u.u1 t) y = 0

end Dxss.Spec
