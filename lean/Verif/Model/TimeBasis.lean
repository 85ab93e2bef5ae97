import Verif.Model.Poly
import Mathlib.Data.Real.Basic
import Mathlib.Analysis.Real.Sqrt

/-!
# `/repo/src/dxss/precomp_time_int.py`
-/

namespace Dxss

/-! ## `get_elmat_time` -/

section
open Poly

/-- The *symbolic* basis table local to `get_elmat_time`
(precomp_time_int.py:12-22), expression by expression. -/
def symBasis : ℕ → Option (List Poly)
  | 0 => some [C 1]
  | 1 => some [sub (C 1) X, X]
  | 2 => some [mul (mul (C 2) (sub (C 1) X)) (sub (C (1/2)) X),
               mul (mul (C 4) X) (sub (C 1) X),
               mul (mul (C 2) X) (sub X (C (1/2)))]
  | 3 => some [mul (mul (mul (C (-9/2)) (sub X (C 1))) (sub X (C (2/3)))) (sub X (C (1/3))),
               mul (mul (mul (C (27/2)) X) (sub X (C 1))) (sub X (C (2/3))),
               mul (mul (mul (neg (C (27/2))) X) (sub X (C 1))) (sub X (C (1/3))),
               mul (mul (mul (C (9/2)) X) (sub X (C (1/3)))) (sub X (C (2/3)))]
  | _ => none

/-- The dictionary returned by `get_elmat_time` (precomp_time_int.py:31,37,43,49,55,64).
A numpy matrix is a function of its two indices (row, column). -/
structure Elmat where
  /-- `"M_time_q_qstar"` -/  M_q_qs : ℕ → ℕ → ℚ
  /-- `"M_time_q_q"` -/      M_q_q : ℕ → ℕ → ℚ
  /-- `"M_time_qstar_qstar"` -/ M_qs_qs : ℕ → ℕ → ℚ
  /-- `"DM_time_q_qstar"` -/ DM_q_qs : ℕ → ℕ → ℚ
  /-- `"DM_time_q_q"` -/     DM_q_q : ℕ → ℕ → ℚ
  /-- `"DDM_time_q_q"` -/    DDM_q_q : ℕ → ℕ → ℚ

/-- `np.zeros((r, c))` followed by the double loop `m[i, j] = f i j`
(precomp_time_int.py:27-30 and the five analogous blocks). Reads outside the array, which
raise `IndexError` in numpy, are 0 here; no modelled code performs one (see property C11). -/
def fillMat (r c : ℕ) (f : ℕ → ℕ → ℚ) : ℕ → ℕ → ℚ :=
  fun i j => if i < r ∧ j < c then f i j else 0

/-- `get_elmat_time(q, qstar)`, precomp_time_int.py:5-66. -/
def getElmatTime (q qstar : ℕ) : Py Elmat :=
  match symBasis q with
  | none => .error .keyError                                  -- line 24
  | some phis =>
    match symBasis qstar with
    | none => .error .keyError                                -- line 25
    | some chis =>
      let phi (j : ℕ) : Poly := phis.getD j []
      let chi (i : ℕ) : Poly := chis.getD i []
      .ok {
        -- lines 27-31
        M_q_qs := fillMat (qstar+1) (q+1) fun i j => integrate01 (mul (phi j) (chi i))
        -- lines 33-37
        M_q_q := fillMat (q+1) (q+1) fun i j => integrate01 (mul (phi j) (phi i))
        -- lines 39-43
        M_qs_qs := fillMat (qstar+1) (qstar+1) fun i j => integrate01 (mul (chi j) (chi i))
        -- lines 45-49
        DM_q_qs := fillMat (qstar+1) (q+1) fun i j => integrate01 (mul (deriv (phi j)) (chi i))
        -- lines 51-55
        DM_q_q := fillMat (q+1) (q+1) fun i j => integrate01 (mul (deriv (phi j)) (phi i))
        -- lines 57-64
        DDM_q_q := fillMat (q+1) (q+1) fun i j =>
          integrate01 (mul (deriv (phi j)) (deriv (phi i))) }

end

/-! ## the module-level table `basis_in_time` -/

/-- The *callable* basis table `basis_in_time` (precomp_time_int.py:159-192): values and
derivatives as Python lambdas. `none` is a missing dict key. -/
noncomputable def basisInTime : ℕ → Option (List (ℝ → ℝ) × List (ℝ → ℝ))
  | 0 => some ([fun _ => 1], [fun _ => 0])
  | 1 => some ([fun t => 1 - t, fun t => t], [fun _ => -1, fun _ => 1])
  | 2 => some (
      [fun t => 2 * (1 - t) * (1/2 - t),
       fun t => 4 * t * (1 - t),
       fun t => 2 * t * (t - 1/2)],
      [fun t => -3 + 4 * t, fun t => 4 - 8 * t, fun t => 4 * t - 1])
  | 3 => some (
      [fun t => (-9/2) * (t - 1) * (t - 2/3) * (t - 1/3),
       fun t => (27/2) * t * (t - 1) * (t - 2/3),
       fun t => -(27/2) * t * (t - 1) * (t - 1/3),
       fun t => (9/2) * t * (t - 1/3) * (t - 2/3)],
      [fun t => (-9/2) * ((t - 2/3) * (t - 1/3) + (t - 1) * (t - 1/3) + (t - 1) * (t - 2/3)),
       fun t => (27/2) * ((t - 1) * (t - 2/3) + t * (t - 2/3) + t * (t - 1)),
       fun t => -(27/2) * ((t - 1) * (t - 1/3) + t * (t - 1/3) + t * (t - 1)),
       fun t => (9/2) * ((t - 1/3) * (t - 2/3) + t * (t - 2/3) + t * (t - 1/3))])
  | _ => none

/-- `basis_in_time[q][0][j]` (`self.phi_trial[j]`, space_time.py:136). -/
noncomputable def phi (q j : ℕ) : ℝ → ℝ :=
  match basisInTime q with
  | some (vs, _) => vs.getD j (fun _ => 0)
  | none => fun _ => 0

/-- `basis_in_time[q][1][j]` (`self.dt_phi_trial[j]`, space_time.py:136). -/
noncomputable def dphi (q j : ℕ) : ℝ → ℝ :=
  match basisInTime q with
  | some (_, ds) => ds.getD j (fun _ => 0)
  | none => fun _ => 0

/-! ## `QuadRule` -/

/-- An instance of `QuadRule`. `table = none` models the attributes `points` / `weights`
never being assigned (unrecognised `name`). -/
structure QuadRule where
  name : String
  npoints : ℤ
  table : Option (List ℝ × List ℝ)

/-- dict `gauss_radau`, precomp_time_int.py:75-88 -/
noncomputable def gaussRadau : ℤ → Option (List ℝ × List ℝ)
  | 3 => some ([-1, (1 - √6) / 5, (1 + √6) / 5], [2/9, (16 + √6) / 18, (16 - √6) / 18])
  | 4 => some ([-1, -0.575319, 0.181066, 0.822824], [0.125, 0.657689, 0.776387, 0.440924])
  | 5 => some ([-1, -0.72048, -0.167181, 0.446314, 0.885792],
               [0.08, 0.446208, 0.623653, 0.562712, 0.287427])
  | _ => none

/-- dict `gauss`, precomp_time_int.py:89-93 -/
noncomputable def gauss : ℤ → Option (List ℝ × List ℝ)
  | 1 => some ([0], [2])
  | 2 => some ([-1.0 / √3, 1.0 / √3], [1, 1])
  | 3 => some ([-√(3/5), 0, √(3/5)], [5/9, 8/9, 5/9])
  | _ => none

/-- dict `newton_cotes`, precomp_time_int.py:100-103 -/
noncomputable def newtonCotes : ℤ → Option (List ℝ)
  | 2 => some [1/2, 1/2]
  | 3 => some [1/6, 4/6, 1/6]
  | _ => none

/-- Python `range(n)` for an `int` n as a list of naturals. -/
def pyRange (n : ℤ) : List ℕ := List.range n.toNat

/-- `QuadRule.__init__`, precomp_time_int.py:70-116. -/
noncomputable def mkQuadRule (name : String) (npoints : ℤ) : Py QuadRule :=
  if name = "Gauss-Radau" then
    match gaussRadau npoints with
    | none => .error .keyError                                       -- line 106
    | some tab => .ok ⟨name, npoints, some tab⟩
  else if name = "Gauss" then
    match gauss npoints with
    | none => .error .keyError                                       -- line 109
    | some tab => .ok ⟨name, npoints, some tab⟩
  else if name = "Newton-Cotes" then
    -- line 112: the list comprehension divides by `npoints - 1` once per element
    if npoints - 1 = 0 ∧ pyRange npoints ≠ [] then .error .zeroDivision
    else
      let pts : List ℝ := (pyRange npoints).map fun i => 0 + (i : ℝ) / ((npoints : ℝ) - 1)
      match newtonCotes npoints with
      | none => .error .keyError                                     -- line 113
      | some w => .ok ⟨name, npoints, some (pts, w)⟩
  else if name = "Midpoint-Rule" then
    .ok ⟨name, npoints, some ([0.5], [1.0])⟩
  else .ok ⟨name, npoints, none⟩

/-- Value returned by `current_pts` / `t_weights`: a list, Python's `None`, or an exception
(`AttributeError` when `points` was never set – unreachable, since the branches that use it
require a recognised name). -/
abbrev PyList? := Py (Option (List ℝ))

/-- `QuadRule.current_pts(a, b)`, precomp_time_int.py:118-126. -/
noncomputable def QuadRule.currentPts (r : QuadRule) (a b : ℝ) : PyList? :=
  if r.name = "Gauss-Radau" ∨ r.name = "Gauss" then
    match r.table with
    | none => .error .attributeError
    | some (pts, _) => .ok (some (pts.map fun pt => 0.5 * (b - a) * pt + 0.5 * (b + a)))
  else if r.name = "Newton-Cotes" then
    if r.npoints - 1 = 0 then .error .zeroDivision
    else
      let h := (b - a) / ((r.npoints : ℝ) - 1)
      .ok (some ((pyRange r.npoints).map fun i => a + (i : ℝ) * h))
  else if r.name = "Midpoint-Rule" then .ok (some [0.5 * a + 0.5 * b])
  else .ok none

/-- `QuadRule.t_weights(delta_t)`, precomp_time_int.py:128-135. -/
noncomputable def QuadRule.tWeights (r : QuadRule) (deltaT : ℝ) : PyList? :=
  if r.name = "Gauss-Radau" ∨ r.name = "Gauss" then
    match r.table with
    | none => .error .attributeError
    | some (_, ws) => .ok (some (ws.map fun w => 0.5 * deltaT * w))
  else if r.name = "Newton-Cotes" then
    match r.table with
    | none => .error .attributeError
    | some (_, ws) => .ok (some (ws.map fun w => deltaT * w))
  else if r.name = "Midpoint-Rule" then .ok (some [deltaT])
  else .ok none

/-! ## `theta_ref`, `d_theta_ref` -/

/-- `pts_raudau_right`, precomp_time_int.py:138 -/
def ptsRadauRight : List ℝ := [0.0, 1.0]

/-- `theta_ref(tau)`, precomp_time_int.py:141-145: accumulating product loop. -/
noncomputable def thetaRef (tau : ℝ) : ℝ :=
  ptsRadauRight.foldl (fun result xmu => result * ((tau - xmu) / (-1 - xmu))) 1

/-- `d_theta_ref(tau)`, precomp_time_int.py:148-156: outer sum loop, inner product loop
skipping `mu == j`. -/
noncomputable def dThetaRef (tau : ℝ) : ℝ :=
  (List.range ptsRadauRight.length).foldl (fun result j =>
    let fac0 : ℝ := 1 / (-1 - ptsRadauRight.getD j 0)
    let fac := (List.range ptsRadauRight.length).foldl (fun f mu =>
      if mu ≠ j then f * ((tau - ptsRadauRight.getD mu 0) / (-1 - ptsRadauRight.getD mu 0))
      else f) fac0
    result + fac) 0

end Dxss
