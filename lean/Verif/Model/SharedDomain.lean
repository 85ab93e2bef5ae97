import Verif.Model.Construct
import Verif.Model.History

/-!
# Several objects with one data domain

The constructor keeps the caller's `DataDomain` (space_time.py:119) and, for `fitted=True`, replaces its indicator
(147-150).  The indicator is read whenever a form with a data term is built (365, 369, 757, 926).  In the other files it is part of
the configuration of an object; here it belongs to the `DataDomain`, which the caller may change and which several objects
may share.
-/

namespace Dxss
variable {V : Type} [AddCommGroup V] [Module ℝ V]

/-- The configuration with another indicator function. -/
def Cfg.withInd (C : Cfg V) (f : V) : Cfg V := { C with D := { C.D with ind := f } }

/-- `SpaceTime(…, omega=dom, …)`: the arguments, interpolation into the piecewise constant functions of the mesh, what DOLFINx makes
of the attributes set by the constructor on that mesh, and the state of the memory in which the object starts. -/
structure NewArgs (V : Type) [AddCommGroup V] [Module ℝ V] where
  interp : V →ₗ[ℝ] V
  args : Args V
  cfg : Built V → Cfg V
  start : World V

/-- What a caller can do with a data domain and the objects that refer to it; objects are held in variables with a number. -/
inductive DomOp (V : Type) [AddCommGroup V] [Module ℝ V]
  | new (k : ℕ) (e : NewArgs V)        -- st[k] = SpaceTime(…, omega=dom, …)
  | assign (f : V)                     -- dom.indicator_function = f, or .interpolate(f)
  | setFitted (b : Bool)               -- dom.fitted = b
  | call (k : ℕ) (op : Op V)           -- a public call on st[k]

/-- The data domain and the objects.  (Vectors of the caller are not shared between objects here.) -/
structure DomWorld (V : Type) [AddCommGroup V] [Module ℝ V] where
  dom : DataDomain V
  objs : ℕ → Option (Cfg V × World V)

/-- One step; the caller catches exceptions. -/
noncomputable def DomOp.step (s : DomWorld V) : DomOp V → DomWorld V
  | .new k e =>
    match construct e.interp e.args s.dom with
    | (.ok B, dom) => { dom := dom, objs := Function.update s.objs k (some (e.cfg B, e.start)) }
    | (.error _, dom) => { s with dom := dom }
  | .assign f => { s with dom := { s.dom with indicator := f } }
  | .setFitted b => { s with dom := { s.dom with fitted := b } }
  | .call k op =>
    match s.objs k with
    | some (C, w) => { s with objs := Function.update s.objs k (some (C, (runOp (C.withInd s.dom.indicator) op w).2)) }
    | none => s

noncomputable def runDomOps (ops : List (DomOp V)) (s : DomWorld V) : DomWorld V := ops.foldl DomOp.step s

end Dxss
