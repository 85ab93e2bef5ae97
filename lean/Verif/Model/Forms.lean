import Verif.Model.TimeBasis
import Mathlib.Algebra.Module.LinearMap.Defs
import Mathlib.Algebra.Algebra.Bilinear
import Mathlib.LinearAlgebra.BilinearMap

/-!
# Model of the variational forms built in `space_time.py`

A UFL form is modelled as the list of its summands in program order.  Each summand is
`coef * op(trial operand, test operand)` where `op` is one of the spatial integrands occurring
in the code.  An operand such as `u1[c+1] - u1[c]` is a list of (coefficient, component, index)
atoms.  `trial` components: 0 = u1, 1 = u2, 2 = z1, 3 = z2; `test` components: 0 = w1, 1 = w2,
2 = y1, 3 = y2.
-/

namespace Dxss

/-- Everything the spatial discretisation (DOLFINx mesh, UFL integrands) contributes.
`V` is the space of (piecewise smooth) spatial functions on which the integrands are defined.
Real scalar mode: `inner` is symmetric. -/
structure Space (V : Type) [AddCommGroup V] [Module ℝ V] where
  /-- `inner(u, w) * dx` -/
  mass : V →ₗ[ℝ] V →ₗ[ℝ] ℝ
  /-- `inner(grad(u), grad(w)) * dx` -/
  stiff : V →ₗ[ℝ] V →ₗ[ℝ] ℝ
  /-- `inner(n_facet, grad(u)) * w * ds` -/
  nit : V →ₗ[ℝ] V →ₗ[ℝ] ℝ
  /-- `(1 / h) * inner(u, w) * ds` -/
  pen : V →ₗ[ℝ] V →ₗ[ℝ] ℝ
  /-- `0.5 * (h("+") + h("-")) * inner(jump(grad(u)), jump(grad(w))) * dS` -/
  ghost : V →ₗ[ℝ] V →ₗ[ℝ] ℝ
  /-- `h**2 * inner(u, w) * dx` -/
  h2 : V →ₗ[ℝ] V →ₗ[ℝ] ℝ
  /-- `omega_ind * inner(u, w) * dx`, as a function of `omega_ind` -/
  omega : V →ₗ[ℝ] V →ₗ[ℝ] V →ₗ[ℝ] ℝ
  /-- `div(grad(u))`, elementwise -/
  lap : V →ₗ[ℝ] V
  /-- the constant function `1.0` -/
  one : V
  mass_symm : ∀ u w, mass u w = mass w u
  stiff_symm : ∀ u w, stiff u w = stiff w u
  pen_symm : ∀ u w, pen u w = pen w u
  ghost_symm : ∀ u w, ghost u w = ghost w u
  h2_symm : ∀ u w, h2 u w = h2 w u
  omega_symm : ∀ i u w, omega i u w = omega i w u

/-- Attributes of a constructed `SpaceTime` object that the forms read (space_time.py:110-150,
230-234).  See `mkDisc` for the constructor. -/
structure Disc (V : Type) where
  q : ℕ
  qstar : ℕ
  N : ℕ
  dt : ℝ                 -- self.delta_t
  lam : ℝ                -- self.lam_Nitsche
  eps : ℝ                -- self.eps
  E : Elmat              -- self.elmat_time
  gData : ℝ              -- stabilisation_terms["data"]
  gDual : ℝ
  gPrimal : ℝ
  gJump : ℝ              -- stabilisation_terms["primal-jump"]
  jumpsFw : Bool         -- self.jumps_in_fw_problem
  wellPosed : Bool
  ind : V                -- self.omega.indicator_function
  sol : ℝ → V            -- self.solution.v(t, x)

/-- The spatial integrands occurring in the forms. -/
inductive SOp
  | mass | stiff | omega | pen | ghost | h2mass
  | nitTrial      -- `inner(n_facet, grad(trial)) * test * ds`
  | nitTest       -- `inner(n_facet, grad(test)) * trial * ds`
  | h2LapTest     -- `h**2 * inner(trial, div(grad(test))) * dx`
  | h2LapTrial    -- `h**2 * inner(div(grad(trial)), test) * dx`
  | h2LapLap      -- `h**2 * inner(div(grad(trial)), div(grad(test))) * dx`
  deriving DecidableEq

variable {V : Type} [AddCommGroup V] [Module ℝ V]

/-- Value of an integrand; `ind` is the data-domain indicator in force. -/
def SOp.eval (S : Space V) (ind : V) : SOp → V → V → ℝ
  | .mass, u, w => S.mass u w
  | .stiff, u, w => S.stiff u w
  | .omega, u, w => S.omega ind u w
  | .pen, u, w => S.pen u w
  | .ghost, u, w => S.ghost u w
  | .h2mass, u, w => S.h2 u w
  | .nitTrial, u, w => S.nit u w
  | .nitTest, u, w => S.nit w u
  | .h2LapTest, u, w => S.h2 u (S.lap w)
  | .h2LapTrial, u, w => S.h2 (S.lap u) w
  | .h2LapLap, u, w => S.h2 (S.lap u) (S.lap w)

/-- A (coefficient, component, index) atom `c * f[comp][idx]`. -/
structure Atom where
  c : ℝ
  comp : Fin 4
  idx : ℤ

abbrev Operand := List Atom

/-- `f[idx]` for component `comp`. -/
def at_ (comp : Fin 4) (idx : ℤ) : Operand := [⟨1, comp, idx⟩]
/-- `f[i] - f[i']`. -/
def diff_ (comp : Fin 4) (i i' : ℤ) : Operand := [⟨1, comp, i⟩, ⟨-1, comp, i'⟩]

/-- A space-time (or slab, coupling, …) function: a spatial function for each component and
index. -/
abbrev Field (V : Type) := Fin 4 → ℤ → V

def Operand.eval (F : Field V) (o : Operand) : V := (o.map fun a => a.c • F a.comp a.idx).sum

structure Term where
  coef : ℝ
  op : SOp
  trial : Operand
  test : Operand

def Term.eval (S : Space V) (ind : V) (U W : Field V) (t : Term) : ℝ :=
  t.coef * t.op.eval S ind (t.trial.eval U) (t.test.eval W)

/-- Value of the bilinear form (a list of summands) on trial field `U` and test field `W`. -/
def evalForm (S : Space V) (ind : V) (F : List Term) (U W : Field V) : ℝ :=
  (F.map fun t => t.eval S ind U W).sum

/-- A summand of a linear form, with a known function `src` in place of the trial operand. -/
structure LTerm (V : Type) where
  coef : ℝ
  op : SOp
  src : V
  test : Operand

def LTerm.eval (S : Space V) (ind : V) (W : Field V) (t : LTerm V) : ℝ :=
  t.coef * t.op.eval S ind t.src (t.test.eval W)

def evalLin (S : Space V) (ind : V) (F : List (LTerm V)) (W : Field V) : ℝ :=
  (F.map fun t => t.eval S ind W).sum

/-- `for j in range(n): for k in range(m): …` collecting the summands added by the body. -/
def loop2 {α : Type*} (n m : ℕ) (body : ℕ → ℕ → List α) : List α :=
  (List.range n).flatMap fun j => (List.range m).flatMap fun k => body j k

/-- The four running indices of the slab loops (e.g. space_time.py:378-381). -/
structure Counters where
  intQ : ℤ
  couplingQ : ℤ
  intQs : ℤ
  couplingQs : ℤ

/-- Initial values, space_time.py:378-381 (same at 738-741, 1138-1141, 1190-1193, 1267-1270). -/
def Counters.init : Counters := ⟨0, -1, 0, -1⟩

/-- End-of-iteration update, space_time.py:694-697 (same at 781-784, 1181-1184, 1255-1258,
1324-1327). -/
def Counters.next (q qstar : ℕ) (c : Counters) : Counters :=
  ⟨c.intQ + (q + 1), c.couplingQ + (q + 1), c.intQs + (qstar + 1), c.couplingQs + (qstar + 1)⟩

/-- `for n in range(N)` with the four running indices; the body receives the counters and `n`
and returns the summands it adds. -/
def slabLoop {α : Type*} (q qstar N : ℕ) (body : Counters → ℕ → List α) : List α :=
  ((List.range N).foldl (fun (st : Counters × List α) n =>
    (st.1.next q qstar, st.2 ++ body st.1 n)) (Counters.init, [])).2

/-- `abs(x) > 1e-10` as used in the guards at space_time.py:411,455,911,951. -/
def guard10 (x : ℚ) : Bool := decide ((1e-10 : ℚ) < |x|)

namespace Disc
variable (D : Disc V)

/-! ### `setup_spacetime_matrix`, one function per loop nest of the slab loop -/

/-- space_time.py:386-418: wave operator, tested with (y1, y2). -/
noncomputable def stWave (c : Counters) : List Term :=
  loop2 (D.q + 1) (D.qstar + 1) fun j k =>
    [⟨D.E.DM_q_qs k j, .mass, at_ 1 (c.intQ + j), at_ 2 (c.intQs + k)⟩,
     ⟨D.dt * D.E.M_q_qs k j, .stiff, at_ 0 (c.intQ + j), at_ 2 (c.intQs + k)⟩,
     ⟨D.E.DM_q_qs k j, .mass, at_ 0 (c.intQ + j), at_ 3 (c.intQs + k)⟩,
     ⟨-(D.dt * D.E.M_q_qs k j), .mass, at_ 1 (c.intQ + j), at_ 3 (c.intQs + k)⟩] ++
    if guard10 (D.E.M_q_qs k j) then
      [⟨-(D.dt * D.E.M_q_qs k j), .nitTrial, at_ 0 (c.intQ + j), at_ 2 (c.intQs + k)⟩]
    else []

/-- space_time.py:420-429: data term. -/
noncomputable def stData (c : Counters) : List Term :=
  loop2 (D.q + 1) (D.q + 1) fun j k =>
    [⟨D.gData * D.dt * D.E.M_q_q k j, .omega, at_ 0 (c.intQ + j), at_ 0 (c.intQ + k)⟩]

/-- space_time.py:431-462: adjoint wave operator (test functions w, trial functions z). -/
noncomputable def stAdj (c : Counters) : List Term :=
  loop2 (D.q + 1) (D.qstar + 1) fun j k =>
    [⟨D.E.DM_q_qs k j, .mass, at_ 2 (c.intQs + k), at_ 1 (c.intQ + j)⟩,
     ⟨D.dt * D.E.M_q_qs k j, .stiff, at_ 2 (c.intQs + k), at_ 0 (c.intQ + j)⟩,
     ⟨D.E.DM_q_qs k j, .mass, at_ 3 (c.intQs + k), at_ 0 (c.intQ + j)⟩,
     ⟨-(D.dt * D.E.M_q_qs k j), .mass, at_ 3 (c.intQs + k), at_ 1 (c.intQ + j)⟩] ++
    if guard10 (D.E.M_q_qs k j) then
      [⟨-(D.dt * D.E.M_q_qs k j), .nitTest, at_ 2 (c.intQs + k), at_ 0 (c.intQ + j)⟩]
    else []

/-- space_time.py:464-497: dual stabilisation; index `j` belongs to the test function y, `k` to
the trial function z. -/
noncomputable def stDual (c : Counters) : List Term :=
  loop2 (D.qstar + 1) (D.qstar + 1) fun j k =>
    [⟨-(D.gDual * D.dt * D.E.M_qs_qs k j), .mass, at_ 2 (c.intQs + k), at_ 2 (c.intQs + j)⟩,
     ⟨-(D.gDual * D.dt * D.E.M_qs_qs k j), .stiff, at_ 2 (c.intQs + k), at_ 2 (c.intQs + j)⟩,
     ⟨-(D.gDual * D.dt * D.E.M_qs_qs k j), .mass, at_ 3 (c.intQs + k), at_ 3 (c.intQs + j)⟩,
     ⟨-(D.gDual * D.dt * D.lam * D.E.M_qs_qs k j), .pen, at_ 2 (c.intQs + k),
       at_ 2 (c.intQs + j)⟩]

/-- space_time.py:498-510: extra dual terms at slab interfaces when jumps are included in the
forward problem. -/
noncomputable def stDualJump (c : Counters) (n : ℕ) : List Term :=
  if D.jumpsFw && decide (0 < n) then
    [⟨-(D.gDual * D.dt), .mass, at_ 3 (c.couplingQs + 1), at_ 3 (c.couplingQs + 1)⟩,
     ⟨-(D.gDual * D.dt), .mass, at_ 2 (c.couplingQs + 1), at_ 2 (c.couplingQs + 1)⟩]
  else []

/-- space_time.py:512-593: primal stabilisation. -/
noncomputable def stPrimal (c : Counters) : List Term :=
  loop2 (D.q + 1) (D.q + 1) fun j k =>
    [⟨D.gPrimal * D.dt * D.lam * D.E.M_q_q k j, .pen, at_ 0 (c.intQ + j), at_ 0 (c.intQ + k)⟩,
     ⟨D.gPrimal * D.dt * D.E.M_q_q k j, .ghost, at_ 0 (c.intQ + j), at_ 0 (c.intQ + k)⟩,
     ⟨D.gPrimal * D.dt * D.E.M_q_q k j, .mass, at_ 1 (c.intQ + j), at_ 1 (c.intQ + k)⟩,
     ⟨-(D.gPrimal * D.E.DM_q_q j k), .mass, at_ 1 (c.intQ + j), at_ 0 (c.intQ + k)⟩,
     ⟨-(D.gPrimal * D.E.DM_q_q k j), .mass, at_ 0 (c.intQ + j), at_ 1 (c.intQ + k)⟩,
     ⟨D.gPrimal * (1 / D.dt) * D.E.DDM_q_q k j, .mass, at_ 0 (c.intQ + j), at_ 0 (c.intQ + k)⟩,
     ⟨D.gPrimal * (1 / D.dt) * D.E.DDM_q_q k j, .h2mass, at_ 1 (c.intQ + j), at_ 1 (c.intQ + k)⟩,
     ⟨-(D.gPrimal * D.E.DM_q_q k j), .h2LapTest, at_ 1 (c.intQ + j), at_ 0 (c.intQ + k)⟩,
     ⟨-(D.gPrimal * D.E.DM_q_q j k), .h2LapTrial, at_ 0 (c.intQ + j), at_ 1 (c.intQ + k)⟩,
     ⟨D.gPrimal * D.dt * D.E.M_q_q k j, .h2LapLap, at_ 0 (c.intQ + j), at_ 0 (c.intQ + k)⟩]

/-- space_time.py:595-601: initial-data terms. -/
noncomputable def stInitial (n : ℕ) : List Term :=
  if decide (n = 0) && D.wellPosed then
    [⟨D.gJump * (1 / D.dt), .mass, at_ 0 0, at_ 0 0⟩,
     ⟨D.gJump * D.dt, .stiff, at_ 0 0, at_ 0 0⟩,
     ⟨D.gJump * (1 / D.dt), .mass, at_ 1 0, at_ 1 0⟩]
  else []

/-- space_time.py:603-636: jump terms in the forward problem. -/
noncomputable def stFwJump (c : Counters) (n : ℕ) : List Term :=
  if D.jumpsFw && decide (0 < n) then
    [⟨1 + D.eps, .mass, at_ 2 (c.couplingQs + 1), diff_ 1 (c.couplingQ + 1) c.couplingQ⟩,
     ⟨1 + D.eps, .mass, at_ 3 (c.couplingQs + 1), diff_ 0 (c.couplingQ + 1) c.couplingQ⟩,
     ⟨1 + D.eps, .mass, diff_ 0 (c.couplingQ + 1) c.couplingQ, at_ 3 (c.couplingQs + 1)⟩,
     ⟨1 + D.eps, .mass, diff_ 1 (c.couplingQ + 1) c.couplingQ, at_ 2 (c.couplingQs + 1)⟩]
  else []

/-- space_time.py:638-692: primal jump stabilisation, one-sided test functions if `precond`. -/
noncomputable def stJump (precond : Bool) (c : Counters) (n : ℕ) : List Term :=
  if 0 < n then
    if precond then
      [⟨D.gJump * (1 / D.dt), .mass, diff_ 0 (c.couplingQ + 1) c.couplingQ,
          at_ 0 (c.couplingQ + 1)⟩,
       ⟨D.gJump * D.dt, .stiff, diff_ 0 (c.couplingQ + 1) c.couplingQ, at_ 0 (c.couplingQ + 1)⟩,
       ⟨D.gJump * (1 / D.dt), .mass, diff_ 1 (c.couplingQ + 1) c.couplingQ,
          at_ 1 (c.couplingQ + 1)⟩]
    else
      [⟨D.gJump * (1 / D.dt), .mass, diff_ 0 (c.couplingQ + 1) c.couplingQ,
          diff_ 0 (c.couplingQ + 1) c.couplingQ⟩,
       ⟨D.gJump * D.dt, .stiff, diff_ 0 (c.couplingQ + 1) c.couplingQ,
          diff_ 0 (c.couplingQ + 1) c.couplingQ⟩,
       ⟨D.gJump * (1 / D.dt), .mass, diff_ 1 (c.couplingQ + 1) c.couplingQ,
          diff_ 1 (c.couplingQ + 1) c.couplingQ⟩]
  else []

/-- Body of the slab loop, space_time.py:384-692. -/
noncomputable def stBody (precond : Bool) (c : Counters) (n : ℕ) : List Term :=
  D.stWave c ++ D.stData c ++ D.stAdj c ++ D.stDual c ++ D.stDualJump c n ++ D.stPrimal c ++
    D.stInitial n ++ D.stFwJump c n ++ D.stJump precond c n

/-- The form `a` built by `setup_spacetime_matrix(afes, precond)`, space_time.py:342-697.
The indicator chosen at 363-368 (interpolated on a coarse space) is the `ind` argument of
`evalForm`. -/
noncomputable def stForm (precond : Bool) : List Term :=
  ⟨1e-20, .mass, at_ 0 0, at_ 2 0⟩ :: slabLoop D.q D.qstar D.N (D.stBody precond)

/-! ### `setup_slab_matrix` -/

/-- space_time.py:890-917 -/
noncomputable def slabWave : List Term :=
  loop2 (D.q + 1) (D.qstar + 1) fun j k =>
    [⟨D.E.DM_q_qs k j, .mass, at_ 1 j, at_ 2 k⟩,
     ⟨D.dt * D.E.M_q_qs k j, .stiff, at_ 0 j, at_ 2 k⟩,
     ⟨D.E.DM_q_qs k j, .mass, at_ 0 j, at_ 3 k⟩,
     ⟨-(D.dt * D.E.M_q_qs k j), .mass, at_ 1 j, at_ 3 k⟩] ++
    if guard10 (D.E.M_q_qs k j) then
      [⟨-(D.dt * D.E.M_q_qs k j), .nitTrial, at_ 0 j, at_ 2 k⟩]
    else []

/-- space_time.py:920-929 -/
noncomputable def slabData : List Term :=
  loop2 (D.q + 1) (D.q + 1) fun j k =>
    [⟨D.gData * D.dt * D.E.M_q_q k j, .omega, at_ 0 j, at_ 0 k⟩]

/-- space_time.py:931-958 -/
noncomputable def slabAdj : List Term :=
  loop2 (D.q + 1) (D.qstar + 1) fun j k =>
    [⟨D.E.DM_q_qs k j, .mass, at_ 2 k, at_ 1 j⟩,
     ⟨D.dt * D.E.M_q_qs k j, .stiff, at_ 2 k, at_ 0 j⟩,
     ⟨D.E.DM_q_qs k j, .mass, at_ 3 k, at_ 0 j⟩,
     ⟨-(D.dt * D.E.M_q_qs k j), .mass, at_ 3 k, at_ 1 j⟩] ++
    if guard10 (D.E.M_q_qs k j) then
      [⟨-(D.dt * D.E.M_q_qs k j), .nitTest, at_ 2 k, at_ 0 j⟩]
    else []

/-- space_time.py:960-990 -/
noncomputable def slabDual : List Term :=
  loop2 (D.qstar + 1) (D.qstar + 1) fun j k =>
    [⟨-(D.gDual * D.dt * D.E.M_qs_qs k j), .mass, at_ 2 k, at_ 2 j⟩,
     ⟨-(D.gDual * D.dt * D.E.M_qs_qs k j), .stiff, at_ 2 k, at_ 2 j⟩,
     ⟨-(D.gDual * D.dt * D.E.M_qs_qs k j), .mass, at_ 3 k, at_ 3 j⟩,
     ⟨-(D.gDual * D.dt * D.lam * D.E.M_qs_qs k j), .pen, at_ 2 k, at_ 2 j⟩]

/-- space_time.py:992-994 -/
noncomputable def slabDualJump (withJumps : Bool) : List Term :=
  if D.jumpsFw && withJumps then
    [⟨-(D.gDual * D.dt), .mass, at_ 3 0, at_ 3 0⟩, ⟨-(D.gDual * D.dt), .mass, at_ 2 0, at_ 2 0⟩]
  else []

/-- space_time.py:996-1072 -/
noncomputable def slabPrimal : List Term :=
  loop2 (D.q + 1) (D.q + 1) fun j k =>
    [⟨D.gPrimal * D.dt * D.lam * D.E.M_q_q k j, .pen, at_ 0 j, at_ 0 k⟩,
     ⟨D.gPrimal * D.dt * D.E.M_q_q k j, .ghost, at_ 0 j, at_ 0 k⟩,
     ⟨D.gPrimal * D.dt * D.E.M_q_q k j, .mass, at_ 1 j, at_ 1 k⟩,
     ⟨-(D.gPrimal * D.E.DM_q_q j k), .mass, at_ 1 j, at_ 0 k⟩,
     ⟨-(D.gPrimal * D.E.DM_q_q k j), .mass, at_ 0 j, at_ 1 k⟩,
     ⟨D.gPrimal * (1 / D.dt) * D.E.DDM_q_q k j, .mass, at_ 0 j, at_ 0 k⟩,
     ⟨D.gPrimal * (1 / D.dt) * D.E.DDM_q_q k j, .h2mass, at_ 1 j, at_ 1 k⟩,
     ⟨-(D.gPrimal * D.E.DM_q_q k j), .h2LapTest, at_ 1 j, at_ 0 k⟩,
     ⟨-(D.gPrimal * D.E.DM_q_q j k), .h2LapTrial, at_ 0 j, at_ 1 k⟩,
     ⟨D.gPrimal * D.dt * D.E.M_q_q k j, .h2LapLap, at_ 0 j, at_ 0 k⟩]

/-- space_time.py:1074-1083 -/
noncomputable def slabJump (withJumps : Bool) : List Term :=
  if withJumps then
    [⟨D.gJump * (1 / D.dt), .mass, at_ 0 0, at_ 0 0⟩,
     ⟨D.gJump * D.dt, .stiff, at_ 0 0, at_ 0 0⟩,
     ⟨D.gJump * (1 / D.dt), .mass, at_ 1 0, at_ 1 0⟩] ++
    if D.jumpsFw then
      [⟨1 + D.eps, .mass, at_ 1 0, at_ 2 0⟩, ⟨1 + D.eps, .mass, at_ 0 0, at_ 3 0⟩]
    else []
  else []

/-- The form `a_pre` built by `setup_slab_matrix(with_jumps)`, space_time.py:866-1083. -/
noncomputable def slabForm (withJumps : Bool) : List Term :=
  ⟨1e-20, .mass, at_ 0 0, at_ 2 0⟩ ::
    (D.slabWave ++ D.slabData ++ D.slabAdj ++ D.slabDual ++ D.slabDualJump withJumps ++
      D.slabPrimal ++ D.slabJump withJumps)

/-! ### Interface forms -/

/-- `setup_coupling_matrix_between_slices`, space_time.py:804-830.  Components 0 = u1_c / w1_c,
1 = u2_c / w2_c; index 0 = top of the lower slab, 1 = bottom of the upper slab. -/
noncomputable def couplingForm : List Term :=
  [⟨1e-20, .mass, at_ 0 0, at_ 0 0⟩,
   ⟨D.gJump * (1 / D.dt), .mass, diff_ 0 1 0, diff_ 0 1 0⟩,
   ⟨D.gJump * D.dt, .stiff, diff_ 0 1 0, diff_ 0 1 0⟩,
   ⟨D.gJump * (1 / D.dt), .mass, diff_ 1 1 0, diff_ 1 1 0⟩]

/-- `setup_scaled_mass_matrix_between_slices`, space_time.py:842-855.  Component 0 = u0_bnd[0],
component 1 = u0_bnd[1]; each has the single index 0. -/
noncomputable def bndForm : List Term :=
  [⟨D.gJump * (1 / D.dt), .mass, at_ 0 0, at_ 0 0⟩,
   ⟨D.gJump * D.dt, .stiff, at_ 0 0, at_ 0 0⟩,
   ⟨D.gJump * (1 / D.dt), .mass, at_ 1 0, at_ 1 0⟩]

/-! ### Linear forms -/

/-- The operand `sum([w1[int_idx_q + k] * self.phi_test[k](tau_i) for k in range(q + 1)])`,
space_time.py:758-763. -/
noncomputable def rhsTestOperand (c : Counters) (tau : ℝ) : Operand :=
  (List.range (D.q + 1)).map fun (k : ℕ) => ⟨phi D.q k tau, 0, c.intQ + k⟩

/-- Body of the slab loop of `setup_rhs`, space_time.py:745-779.  `pts`, `ws` are
`self.qr.current_pts(0, 1)` and `self.qr.t_weights(1)`; `u10`, `u20` are the current values of
`self.u1_0`, `self.u2_0`. -/
noncomputable def rhsBody (pts ws : List ℝ) (u10 u20 : V) (c : Counters) (n : ℕ) :
    List (LTerm V) :=
  ((pts.zip ws).map fun p =>
    ⟨D.gData * D.dt * p.2, .omega, D.sol (n * D.dt + D.dt * p.1), D.rhsTestOperand c p.1⟩) ++
  if decide (n = 0) && D.wellPosed then
    [⟨D.gJump * (1 / D.dt), .mass, u10, at_ 0 0⟩,
     ⟨D.gJump * D.dt, .stiff, u10, at_ 0 0⟩,
     ⟨D.gJump * (1 / D.dt), .mass, u20, at_ 1 0⟩]
  else []

/-- The linear form `L` of `setup_rhs`, space_time.py:730-784. -/
noncomputable def rhsForm (S : Space V) (pts ws : List ℝ) (u10 u20 : V) : List (LTerm V) :=
  ⟨1e-20, .mass, S.one, at_ 2 0⟩ :: slabLoop D.q D.qstar D.N (D.rhsBody pts ws u10 u20)

/-- The slab load `l_pre` of `pre_time_marching`, space_time.py:1201-1223. -/
noncomputable def preLoad (S : Space V) (n : ℕ) (u10 u20 : V) : List (LTerm V) :=
  ⟨1e-20, .mass, S.one, at_ 2 0⟩ ::
  if 0 < n then
    [⟨D.gJump * (1 / D.dt), .mass, u10, at_ 0 0⟩,
     ⟨D.gJump * D.dt, .stiff, u10, at_ 0 0⟩,
     ⟨D.gJump * (1 / D.dt), .mass, u20, at_ 1 0⟩] ++
    if D.jumpsFw then [⟨1, .mass, u20, at_ 2 0⟩, ⟨1, .mass, u10, at_ 3 0⟩] else []
  else []

end Disc
end Dxss
