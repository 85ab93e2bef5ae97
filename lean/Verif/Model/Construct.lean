import Verif.Model.SpaceTime

/-!
# The `SpaceTime` constructor

The argument classes (space_time.py:30-64) and `SpaceTime.__init__` (space_time.py:87-249).
-/

namespace Dxss
variable {V : Type} [AddCommGroup V] [Module ℝ V]

/-- `OrderTime`, space_time.py:30-33 -/
structure OrderTime where
  q : ℤ
  qstar : ℤ

/-- `OrderSpace`, space_time.py:36-39 -/
structure OrderSpace where
  k : ℤ
  kstar : ℤ

/-- `DataDomain`, space_time.py:48-52.  A supplied callable is represented by the function it
describes. -/
structure DataDomain (V : Type) where
  indicator : V
  fitted : Bool := true

/-- `ProblemParameters`, space_time.py:55-61 -/
structure ProblemParameters where
  jumpsInFwProblem : Bool := false
  wellPosed : Bool := false

/-- `ProblemParameters.__iter__`, space_time.py:60-61: values in the order of
`dataclasses.fields`. -/
def ProblemParameters.iter (p : ProblemParameters) : List Bool := [p.jumpsInFwProblem, p.wellPosed]

/-- `a, b = iterable`: raises `ValueError` unless there are exactly two values. -/
def unpack2 {α : Type} : List α → Py (α × α)
  | [a, b] => .ok (a, b)
  | _ => .error .valueError

/-- `get_elmat_time(q, qstar)` for Python ints: the dictionaries have no negative keys. -/
def getElmatTimeInt (q qstar : ℤ) : Py Elmat :=
  if 0 ≤ q ∧ 0 ≤ qstar then getElmatTime q.toNat qstar.toNat else .error .keyError

/-- `basis_in_time[q]` for a Python int. -/
noncomputable def basisInTimeInt (q : ℤ) : Py (List (ℝ → ℝ) × List (ℝ → ℝ)) :=
  if 0 ≤ q then
    match basisInTime q.toNat with
    | some b => .ok b
    | none => .error .keyError
  else .error .keyError

/-- The four entries of `stabilisation_terms`.  (The look-ups when a form is
built, where a missing key raises `KeyError`, are in Model/StabDict.) -/
structure Stabs where
  data : ℝ
  dual : ℝ
  primal : ℝ
  primalJump : ℝ

/-- Arguments of the constructor other than the mesh, which is represented by `V` and `interp`. -/
structure Args (V : Type) where
  otime : OrderTime
  ospace : OrderSpace
  N : ℤ
  T : ℝ
  stabs : Stabs
  sol : ℝ → V
  dsol : ℝ → V
  t : ℝ := 0             -- required in Python; the scripts pass 0
  parameters : ProblemParameters := {}

/-- `np.linspace(a, b, num)` for `num ≥ 2`. -/
noncomputable def linspace (a b : ℝ) (num : ℕ) : List ℝ :=
  (List.range num).map fun (i : ℕ) => a + i * ((b - a) / (num - 1 : ℝ))

/-- What the constructor stores; the data domain is the caller's object and is shared. -/
structure Built (V : Type) where
  D : Disc V
  N : ℤ                  -- self.N
  q : ℤ                  -- self.otime.q
  qstar : ℤ
  phi : List (ℝ → ℝ)     -- self.phi_trial, self.phi_test
  dphi : List (ℝ → ℝ)
  qr : QuadRule
  qrHo : QuadRule
  T : ℝ
  t : ℝ                  -- self.t, not read anywhere
  dsol : ℝ → V
  samples : List ℝ       -- self.sample_pts_error

/-- `SpaceTime.__init__`, space_time.py:110-234.  The state is the caller's `DataDomain` object, which
the constructor shares (`self.omega = omega`) and may modify.  `interp` is interpolation into the
piecewise constant functions on the mesh.  The attributes initialised to `None` at 155-249 are the
record `({} : Obj V)`.  Creation of UFL objects is assumed not to fail. -/
noncomputable def construct (interp : V →ₗ[ℝ] V) (a : Args V) : M (DataDomain V) (Built V) := do
  -- 116
  if a.N = 0 then M.raise .zeroDivision
  let dt : ℝ := a.T / a.N
  -- 121
  let lam : ℝ := 5 * (a.ospace.k : ℝ) ^ 2
  -- 123
  let (jumpsFw, wellPosed) ← M.lift (unpack2 a.parameters.iter)
  -- 132-141
  let E ← M.lift (getElmatTimeInt a.otime.q a.otime.qstar)
  let qr ← M.lift (mkQuadRule "Gauss-Radau" 4)
  let qrHo ← M.lift (mkQuadRule "Gauss-Radau" 5)
  let (ph, dph) ← M.lift (basisInTimeInt a.otime.q)
  -- 147-152
  let om ← M.get
  if om.fitted then
    M.modify fun om => { om with indicator := 0 }
    M.modify fun om => { om with indicator := interp om.indicator }
  else
    M.modify fun om => { om with indicator := om.indicator }
  -- 229-232
  let eps : ℝ := if a.otime.qstar = 0 then 1e-15 else 0
  let om ← M.get
  return {
    D := { q := a.otime.q.toNat, qstar := a.otime.qstar.toNat, N := a.N.toNat, dt := dt, lam := lam, eps := eps, E := E
           gData := a.stabs.data, gDual := a.stabs.dual, gPrimal := a.stabs.primal, gJump := a.stabs.primalJump
           jumpsFw := jumpsFw, wellPosed := wellPosed, ind := om.indicator, sol := a.sol }
    N := a.N, q := a.otime.q, qstar := a.otime.qstar, phi := ph, dphi := dph, qr := qr, qrHo := qrHo
    T := a.T, t := a.t, dsol := a.dsol, samples := linspace 0 a.T 105 }

end Dxss
