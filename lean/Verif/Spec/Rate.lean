import Verif.Spec.Approx
import Verif.Model.Assembly
import Mathlib.Analysis.Calculus.Deriv.Basic

/-!
# Specification: smooth paths in the finite element space and their interpolants in time (C89)
-/

namespace Dxss
open Finset

/-- `d k` is the `k`-th derivative of `d 0` up to order `m`, at every point of `[a, b]`. -/
def Chain (m : ℕ) (a b : ℝ) (d : ℕ → ℝ → ℝ) : Prop :=
  ∀ k < m, ∀ t ∈ Set.Icc a b, HasDerivAt (d k) (d (k + 1) t) t


namespace Spec
variable {V : Type} [AddCommGroup V] [Module ℝ V]

/-- The density of the distance (`distDens`) as a function of the errors.  `g` bounds the boundary flux:
`(nit v y)² ≤ g v v * pen y y`. -/
noncomputable def errDens (S : Space V) (D : Disc V) (g : V →ₗ[ℝ] V →ₗ[ℝ] ℝ) (e1 e2 de1 de2 : V) : ℝ :=
  1 / D.gDual * (S.mass de2 de2 + S.stiff e1 e1 + 1 / D.lam * g e1 e1 + S.mass (de1 - e2) (de1 - e2))
    + D.gPrimal * primalStab S D.lam e1 e2 de1 de2 e1 e2 de1 de2

/-- Distance of two paths: residual of the wave operator and stabilisation terms integrated over time, misfit on the
data domain (with the quadrature `Q`), initial misfit (well-posed problems). -/
noncomputable def pathDist (S : Space V) (D : Disc V) (ind : V) (g : V →ₗ[ℝ] V →ₗ[ℝ] ℝ) (Q : ℕ → (ℝ → ℝ) → ℝ)
    (u p : Path V) : ℝ :=
  ∑ n ∈ range D.N, (slabInt D.dt n (fun t => errDens S D g (u.u1 t - p.u1 t) (u.u2 t - p.u2 t) (u.du1 t - p.du1 t) (u.du2 t - p.du2 t))
    + D.gData * Q n (fun t => S.omega ind (u.u1 t - p.u1 t) (u.u1 t - p.u1 t))
    + if n = 0 ∧ D.wellPosed then D.gJump * jumpForm S D.dt (u.u1 0 - p.u1 0) (u.u2 0 - p.u2 0)
        (u.u1 0 - p.u1 0) (u.u2 0 - p.u2 0) else 0)

/-- A path with values in the primal finite element space whose coefficients have `q + 1` derivatives in time, the last
bounded by `M`.  `c1 s k` is the `k`-th derivative of coefficient `s` of the first component. -/
structure SmoothPath (fe : FE V) (q : ℕ) (T M : ℝ) (p : Path V) (c1 c2 : ℕ → ℕ → ℝ → ℝ) : Prop where
  chain : ∀ s < fe.mP, Chain (q + 1) 0 T (c1 s) ∧ Chain (q + 1) 0 T (c2 s)
  bound : ∀ s < fe.mP, ∀ t ∈ Set.Icc 0 T, |c1 s (q + 1) t| ≤ M ∧ |c2 s (q + 1) t| ≤ M
  u1 : ∀ t ∈ Set.Icc 0 T, p.u1 t = ∑ s ∈ range fe.mP, c1 s 0 t • fe.bP s
  u2 : ∀ t ∈ Set.Icc 0 T, p.u2 t = ∑ s ∈ range fe.mP, c2 s 0 t • fe.bP s
  du1 : ∀ t ∈ Set.Icc 0 T, p.du1 t = ∑ s ∈ range fe.mP, c1 s 1 t • fe.bP s
  du2 : ∀ t ∈ Set.Icc 0 T, p.du2 t = ∑ s ∈ range fe.mP, c2 s 1 t • fe.bP s

/-- The discrete function `X` takes the values of the path `p` at the time nodes of all slabs, and has no dual part. -/
structure Interpolates (D : Disc V) (p : Path V) (X : Field V) : Prop where
  u1 : ∀ n < D.N, ∀ j ≤ D.q, X 0 (n * (D.q + 1) + j) = p.u1 (n * D.dt + j / D.q * D.dt)
  u2 : ∀ n < D.N, ∀ j ≤ D.q, X 1 (n * (D.q + 1) + j) = p.u2 (n * D.dt + j / D.q * D.dt)
  dual1 : ∀ i, X 2 i = 0
  dual2 : ∀ i, X 3 i = 0

/-- Error of the primal part of a discrete function with respect to a path: misfit on the data domain, primal stabilisation
terms (boundary values, gradient jumps, `u2 = ∂t u1`, residual of the equation), initial values (well-posed problems) and
jumps between slabs. -/
noncomputable def primalErr (S : Space V) (D : Disc V) (ind : V) (u : Path V) (X : Field V) : ℝ :=
  ∑ n ∈ range D.N, (slabInt D.dt n (fun t =>
      D.gData * S.omega ind (u.u1 t - val D.q D.dt n (X 0) t) (u.u1 t - val D.q D.dt n (X 0) t)
      + D.gPrimal * primalStab S D.lam (u.u1 t - val D.q D.dt n (X 0) t) (u.u2 t - val D.q D.dt n (X 1) t)
          (u.du1 t - valDt D.q D.dt n (X 0) t) (u.du2 t - valDt D.q D.dt n (X 1) t)
          (u.u1 t - val D.q D.dt n (X 0) t) (u.u2 t - val D.q D.dt n (X 1) t)
          (u.du1 t - valDt D.q D.dt n (X 0) t) (u.du2 t - valDt D.q D.dt n (X 1) t))
    + if n = 0 then
        if D.wellPosed then D.gJump * jumpForm S D.dt (u.u1 0 - val D.q D.dt 0 (X 0) 0) (u.u2 0 - val D.q D.dt 0 (X 1) 0)
          (u.u1 0 - val D.q D.dt 0 (X 0) 0) (u.u2 0 - val D.q D.dt 0 (X 1) 0) else 0
      else
        D.gJump * jumpForm S D.dt (jump D.q D.dt n (X 0)) (jump D.q D.dt n (X 1))
          (jump D.q D.dt n (X 0)) (jump D.q D.dt n (X 1)))

end Spec

end Dxss
