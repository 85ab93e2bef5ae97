import Verif.Spec.Load

/-!
# Distance of a discrete function to a function of time, in the terms of the method
-/

namespace Dxss.Spec
open Finset
variable {V : Type} [AddCommGroup V] [Module ℝ V]

/-- Density of the distance between the path `u` and the discrete pair `(X 0, X 1)` on slab `n`.  `G` bounds the
boundary flux: `(nit v y)² ≤ G v * pen y y`. -/
noncomputable def distDens (S : Space V) (D : Disc V) (G : V → ℝ) (u : Path V) (X : Field V) (n : ℕ) (t : ℝ) : ℝ :=
  let e1 := u.u1 t - val D.q D.dt n (X 0) t; let e2 := u.u2 t - val D.q D.dt n (X 1) t
  let de1 := u.du1 t - valDt D.q D.dt n (X 0) t; let de2 := u.du2 t - valDt D.q D.dt n (X 1) t
  1 / D.gDual * (S.mass de2 de2 + S.stiff e1 e1 + 1 / D.lam * G e1 + S.mass (de1 - e2) (de1 - e2))
    + D.gPrimal * primalStab S D.lam e1 e2 de1 de2 e1 e2 de1 de2

/-- The distance: densities integrated over the slabs, the misfit on the data domain (with the quadrature `Q`), the
initial misfit (well-posed problems) and the jumps of the discrete function. -/
noncomputable def dist (S : Space V) (D : Disc V) (ind : V) (G : V → ℝ) (Q : ℕ → (ℝ → ℝ) → ℝ) (u : Path V)
    (X : Field V) : ℝ :=
  ∑ n ∈ range D.N, (slabInt D.dt n (distDens S D G u X n)
    + D.gData * Q n (fun t => S.omega ind (u.u1 t - val D.q D.dt n (X 0) t) (u.u1 t - val D.q D.dt n (X 0) t))
    + if n = 0 then
        if D.wellPosed then D.gJump * jumpForm S D.dt (u.u1 0 - val D.q D.dt 0 (X 0) 0) (u.u2 0 - val D.q D.dt 0 (X 1) 0)
          (u.u1 0 - val D.q D.dt 0 (X 0) 0) (u.u2 0 - val D.q D.dt 0 (X 1) 0) else 0
      else
        D.gJump * jumpForm S D.dt (jump D.q D.dt n (X 0)) (jump D.q D.dt n (X 1))
          (jump D.q D.dt n (X 0)) (jump D.q D.dt n (X 1))
        + if D.jumpsFw then (1 + D.eps) ^ 2 / (D.gDual * D.dt) *
            (S.mass (jump D.q D.dt n (X 0)) (jump D.q D.dt n (X 0)) + S.mass (jump D.q D.dt n (X 1)) (jump D.q D.dt n (X 1)))
          else 0)

end Dxss.Spec
