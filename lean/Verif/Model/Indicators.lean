import Verif.Model.Py
import Mathlib.Data.Real.Basic

/-!
# The indicator functions of the solver scripts

An array of points of shape `(d, n)` is given by its rows: `x k` is the list of the `k`-th coordinates of the points.
Numbers are exact.  numpy would also accept a single value on the right of a masked assignment and repeat it; here the
number of values always equals the number of marked entries.
-/

namespace Dxss

/-- The rows of an array of points. -/
abbrev PointRows := ℕ → List ℝ

/-- `row <= c`, `row >= c` -/
noncomputable def leMask (row : List ℝ) (c : ℝ) : List Bool := row.map fun a => decide (a ≤ c)
noncomputable def geMask (row : List ℝ) (c : ℝ) : List Bool := row.map fun a => decide (c ≤ a)

/-- `np.logical_or`, `np.logical_and` of arrays of one length; ValueError otherwise -/
def logicalOr (a b : List Bool) : Py (List Bool) :=
  if a.length = b.length then .ok (List.zipWith (· || ·) a b) else .error .valueError
def logicalAnd (a b : List Bool) : Py (List Bool) :=
  if a.length = b.length then .ok (List.zipWith (· && ·) a b) else .error .valueError

/-- `np.invert(mask)` -/
def invert (mask : List Bool) : List Bool := mask.map not

/-- `sum(mask)` -/
def maskSum (mask : List Bool) : ℕ := mask.foldl (fun n b => n + b.toNat) 0

/-- The marked entries, in order, are replaced by the given values. -/
def maskedReplace : List ℝ → List Bool → List ℝ → List ℝ
  | _ :: vs, true :: ms, a :: as => a :: maskedReplace vs ms as
  | v :: vs, true :: ms, [] => v :: maskedReplace vs ms []
  | v :: vs, false :: ms, as => v :: maskedReplace vs ms as
  | vs, _, _ => vs

/-- `values[mask] = new`; IndexError for a mask of the wrong length, ValueError for the wrong number of values. -/
def maskedAssign (values : List ℝ) (mask : List Bool) (new : List ℝ) : Py (List ℝ) :=
  if mask.length ≠ values.length then .error .indexError
  else if new.length ≠ mask.count true then .error .valueError
  else .ok (maskedReplace values mask new)

/-- The common body of the indicator functions; `mask` computes `omega_coords`. -/
def indicatorOf (x : PointRows) (mask : PointRows → Py (List Bool)) : Py (List ℝ) := do
  let values := List.replicate (x 0).length 0
  let omega ← mask x
  let rest := invert omega
  let values ← maskedAssign values omega (List.replicate (maskSum omega) 1)
  let values ← maskedAssign values rest (List.replicate (maskSum rest) 0)
  return values

/-- `omega_ind_convex`, solve_1d.py:82-88 -/
noncomputable def omegaConvex1 (x : PointRows) : Py (List ℝ) :=
  indicatorOf x fun x => logicalOr (leMask (x 0) 0.2) (geMask (x 0) 0.8)

/-- `omega_ind_nogcc`, solve_1d.py:91-97 -/
noncomputable def omegaNoGcc1 (x : PointRows) : Py (List ℝ) := indicatorOf x fun x => .ok (leMask (x 0) 0.2)

/-- `omega_ind_convex`, solve_2d.py:85-97 -/
noncomputable def omegaConvex2 (x : PointRows) : Py (List ℝ) :=
  indicatorOf x fun x => do
    let a ← logicalOr (geMask (x 1) 0.8) (leMask (x 1) 0.2)
    let b ← logicalOr (geMask (x 0) 0.8) a
    logicalOr (leMask (x 0) 0.2) b

/-- `omega_ind`, solve_3d.py:105-126 (`GCC`, `Nx > 2`); `d` is `DATA_SIZE` -/
noncomputable def omegaGcc3 (d : ℝ) (x : PointRows) : Py (List ℝ) :=
  indicatorOf x fun x => do
    let a ← logicalOr (leMask (x 2) d) (geMask (x 2) (1.0 - d))
    let b ← logicalOr (leMask (x 1) d) a
    let c ← logicalOr (geMask (x 1) (1.0 - d)) b
    let e ← logicalOr (geMask (x 0) (1.0 - d)) c
    logicalOr (leMask (x 0) d) e

/-- `omega_ind`, solve_3d.py:142-148 (not `GCC`, `Nx > 2`) -/
noncomputable def omegaNoGcc3 (d : ℝ) (x : PointRows) : Py (List ℝ) :=
  indicatorOf x fun x => logicalAnd (leMask (x 0) d) (geMask (x 0) 0.0)

/-- A UFL condition at a point. -/
inductive UflCond
  | ge (k : ℕ) (c : ℝ) | le (k : ℕ) (c : ℝ) | and (a b : UflCond) | not (a : UflCond)

/-- The value of a condition at a point. -/
noncomputable def UflCond.eval (p : ℕ → ℝ) : UflCond → Bool
  | .ge k c => decide (c ≤ p k)
  | .le k c => decide (p k ≤ c)
  | .and a b => a.eval p && b.eval p
  | .not a => !a.eval p

/-- `ufl.conditional(c, 1, 0)` at a point -/
noncomputable def uflConditional (c : UflCond) (p : ℕ → ℝ) : ℝ := if c.eval p then 1 else 0

/-- `omega_ind`, solve_3d.py:129-139 (`GCC`, `Nx <= 2`) -/
noncomputable def uflGcc3 (d : ℝ) : UflCond :=
  .not (.and (.and (.ge 0 d) (.le 0 (1.0 - d))) (.and (.and (.ge 1 d) (.le 1 (1.0 - d))) (.and (.ge 2 d) (.le 2 (1.0 - d)))))

/-- `omega_ind`, solve_3d.py:151-153 (not `GCC`, `Nx <= 2`) -/
noncomputable def uflNoGcc3 (d : ℝ) : UflCond := .and (.le 0 d) (.ge 0 0.0)

end Dxss
