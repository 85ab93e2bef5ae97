import Verif.Model.Forms
import Mathlib.MeasureTheory.Integral.IntervalIntegral.Basic
import Mathlib.Analysis.Calculus.Deriv.Basic

/-!
# Specification of the space-time variational form

Written from the method's description: on slab `n` (times `n*dt … (n+1)*dt`) every component is a
polynomial in time with values in the spatial space; the form is a sum of true time integrals plus
interface terms.  Only the public time basis `phi` (C01, C02) and the spatial integrands enter.
-/

namespace Dxss.Spec
open Finset
variable {V : Type} [AddCommGroup V] [Module ℝ V]

/-- Value at physical time `t` of the discrete function with coefficients `F`, order `q`, as seen
from slab `n`. -/
noncomputable def val (q : ℕ) (dt : ℝ) (n : ℕ) (F : ℤ → V) (t : ℝ) : V :=
  ∑ j ∈ range (q + 1), phi q j ((t - n * dt) / dt) • F (n * (q + 1) + j)

/-- Its derivative with respect to physical time. -/
noncomputable def valDt (q : ℕ) (dt : ℝ) (n : ℕ) (F : ℤ → V) (t : ℝ) : V :=
  ∑ j ∈ range (q + 1), deriv (fun s => phi q j ((s - n * dt) / dt)) t • F (n * (q + 1) + j)

/-- Jump over the interface between slabs `n-1` and `n` (at time `n*dt`), `n ≥ 1`. -/
noncomputable def jump (q : ℕ) (dt : ℝ) (n : ℕ) (F : ℤ → V) : V :=
  val q dt n F (n * dt) - val q dt (n - 1) F (n * dt)

/-- Wave operator `(∂t u2, y1) + (∇u1, ∇y1) - (∂_n u1, y1)_∂Ω + (∂t u1 - u2, y2)`. -/
def wave (S : Space V) (u1 u2 du1 du2 y1 y2 : V) : ℝ :=
  S.mass du2 y1 + S.stiff u1 y1 - S.nit u1 y1 + S.mass (du1 - u2) y2

/-- Primal stabilisation (bilinear version). -/
def primalStab (S : Space V) (lam : ℝ) (u1 u2 du1 du2 w1 w2 dw1 dw2 : V) : ℝ :=
  lam * S.pen u1 w1 + S.ghost u1 w1 + S.mass (u2 - du1) (w2 - dw1)
    + S.h2 (du2 - S.lap u1) (dw2 - S.lap w1)

/-- Dual stabilisation (bilinear version). -/
def dualStab (S : Space V) (lam : ℝ) (z1 z2 y1 y2 : V) : ℝ :=
  S.mass z1 y1 + S.stiff z1 y1 + S.mass z2 y2 + lam * S.pen z1 y1

/-- Interface energy of a pair of jumps. -/
noncomputable def jumpForm (S : Space V) (dt : ℝ) (u1 u2 w1 w2 : V) : ℝ :=
  1 / dt * S.mass u1 w1 + dt * S.stiff u1 w1 + 1 / dt * S.mass u2 w2

/-- The integrand on slab `n` at time `t`. -/
noncomputable def integrand (S : Space V) (D : Disc V) (ind : V) (U W : Field V) (n : ℕ) (t : ℝ) : ℝ :=
  let u1 := val D.q D.dt n (U 0) t; let u2 := val D.q D.dt n (U 1) t
  let du1 := valDt D.q D.dt n (U 0) t; let du2 := valDt D.q D.dt n (U 1) t
  let z1 := val D.qstar D.dt n (U 2) t; let z2 := val D.qstar D.dt n (U 3) t
  let w1 := val D.q D.dt n (W 0) t; let w2 := val D.q D.dt n (W 1) t
  let dw1 := valDt D.q D.dt n (W 0) t; let dw2 := valDt D.q D.dt n (W 1) t
  let y1 := val D.qstar D.dt n (W 2) t; let y2 := val D.qstar D.dt n (W 3) t
  wave S u1 u2 du1 du2 y1 y2 + wave S w1 w2 dw1 dw2 z1 z2
    + D.gData * S.omega ind u1 w1
    - D.gDual * dualStab S D.lam z1 z2 y1 y2
    + D.gPrimal * primalStab S D.lam u1 u2 du1 du2 w1 w2 dw1 dw2

/-- Interface terms at time `n*dt`, `n ≥ 1`.  `precond` tests the jump with the upper trace only. -/
noncomputable def interface (S : Space V) (D : Disc V) (precond : Bool) (U W : Field V) (n : ℕ) : ℝ :=
  let ju1 := jump D.q D.dt n (U 0); let ju2 := jump D.q D.dt n (U 1)
  let jw1 := jump D.q D.dt n (W 0); let jw2 := jump D.q D.dt n (W 1)
  let w1 := val D.q D.dt n (W 0) (n * D.dt); let w2 := val D.q D.dt n (W 1) (n * D.dt)
  let z1 := val D.qstar D.dt n (U 2) (n * D.dt); let z2 := val D.qstar D.dt n (U 3) (n * D.dt)
  let y1 := val D.qstar D.dt n (W 2) (n * D.dt); let y2 := val D.qstar D.dt n (W 3) (n * D.dt)
  D.gJump * (if precond then jumpForm S D.dt ju1 ju2 w1 w2 else jumpForm S D.dt ju1 ju2 jw1 jw2)
    + (if D.jumpsFw then
        (1 + D.eps) * (S.mass jw2 z1 + S.mass jw1 z2 + S.mass ju1 y2 + S.mass ju2 y1)
          - D.gDual * D.dt * (S.mass z1 y1 + S.mass z2 y2)
       else 0)

/-- Initial-data terms. -/
noncomputable def initial (S : Space V) (D : Disc V) (U W : Field V) : ℝ :=
  if D.wellPosed then
    D.gJump * jumpForm S D.dt (val D.q D.dt 0 (U 0) 0) (val D.q D.dt 0 (U 1) 0)
      (val D.q D.dt 0 (W 0) 0) (val D.q D.dt 0 (W 1) 0)
  else 0

/-- The space-time variational form. -/
noncomputable def form (S : Space V) (D : Disc V) (ind : V) (precond : Bool) (U W : Field V) : ℝ :=
  ∑ n ∈ range D.N, ((∫ t in (n * D.dt)..((n + 1 : ℕ) * D.dt), integrand S D ind U W n t)
    + if n = 0 then initial S D U W else interface S D precond U W n)

/-- The test field `(u1, u2, -z1, -z2)`. -/
def flipDual (U : Field V) : Field V := fun c i => if c = 2 ∨ c = 3 then -U c i else U c i

/-- The energy of a discrete pair `(u, z)`: data misfit, dual and primal stabilisation, initial
energy, jump energy, and (forward jumps) the interface energy of `z`. -/
noncomputable def energy (S : Space V) (D : Disc V) (ind : V) (U : Field V) : ℝ :=
  let u1 := fun n t => val D.q D.dt n (U 0) t
  let u2 := fun n t => val D.q D.dt n (U 1) t
  let du1 := fun n t => valDt D.q D.dt n (U 0) t
  let du2 := fun n t => valDt D.q D.dt n (U 1) t
  let z1 := fun n t => val D.qstar D.dt n (U 2) t
  let z2 := fun n t => val D.qstar D.dt n (U 3) t
  ∑ n ∈ range D.N, ((∫ t in (n * D.dt)..((n + 1 : ℕ) * D.dt),
      (D.gData * S.omega ind (u1 n t) (u1 n t)
        + D.gDual * dualStab S D.lam (z1 n t) (z2 n t) (z1 n t) (z2 n t)
        + D.gPrimal * primalStab S D.lam (u1 n t) (u2 n t) (du1 n t) (du2 n t)
            (u1 n t) (u2 n t) (du1 n t) (du2 n t)))
    + if n = 0 then
        if D.wellPosed then D.gJump * jumpForm S D.dt (u1 0 0) (u2 0 0) (u1 0 0) (u2 0 0) else 0
      else
        D.gJump * jumpForm S D.dt (jump D.q D.dt n (U 0)) (jump D.q D.dt n (U 1))
          (jump D.q D.dt n (U 0)) (jump D.q D.dt n (U 1))
        + if D.jumpsFw then D.gDual * D.dt * (S.mass (z1 n (n * D.dt)) (z1 n (n * D.dt))
            + S.mass (z2 n (n * D.dt)) (z2 n (n * D.dt))) else 0)

end Dxss.Spec
