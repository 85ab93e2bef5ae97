import Verif.Model.SpaceTime
import Mathlib.Analysis.SpecialFunctions.Sqrt

/-!
# Error measurement and sampling for plots
-/

namespace Dxss
variable {V : Type} [AddCommGroup V] [Module ℝ V] (C : Cfg V)

/-- The dictionary returned by `measured_errors`, space_time.py:1470, 1578-1580. -/
structure ErrDict where
  l2T : ℝ          -- "L2-u1-T"
  linfU : ℝ        -- "L-infty-L2-error-u"
  linfUt : ℝ       -- "L-infty-L2-error-ut"
  l2l2Ut : ℝ       -- "L2-L2-error-u_t"

/-- The function with coefficients `v[idx]` in the primal scalar space. -/
noncomputable def nodeAt (fe : FE V) (v : Vec) (idx : List ℕ) : V := nodeFun fe fun s => v (idx.getD s 0)

/-- Lines 1459-1464 (and 1830-1835 of `plot_para_view`): copy the argument to `self.uh` and its top
values to `self.u1_0`, `self.u2_0`. -/
noncomputable def loadFinal (u : Ref) : WM V Unit := do
  let dm ← M.attr (fun w => w.obj.dofmaps)
  let x ← getVec u
  setVec .uh x
  let h ← getVec .uh
  let i0 ← M.lift (pyIdx (dm.full 0) (-1))
  modObj fun o => { o with u10 := some (nodeAt C.fe h i0) }
  let i1 ← M.lift (pyIdx (dm.full 1) (-1))
  modObj fun o => { o with u20 := some (nodeAt C.fe h i1) }

/-- `sum([c(j) * f[j] for j in range(q + 1)])` -/
noncomputable def ufSum (q : ℕ) (c : ℕ → ℝ) (f : ℕ → V) : V :=
  ((List.range (q + 1)).map fun j => c j • f j).sum

/-- `uh_at_ti`, space_time.py:1525-1531, 1540-1543. -/
noncomputable def uhAt (D : Disc V) (n : ℕ) (slab : ℕ → V) (minus : V) (t : ℝ) : V :=
  let tn : ℝ := n * D.dt
  let a := ufSum D.q (fun j => phi D.q j ((t - tn) / D.dt)) slab
  if 0 < n then a - thetaRef ((2 * t - (tn + D.dt + tn)) / D.dt) • (slab 0 - minus) else a

/-- `uh_prime_at_ti`, space_time.py:1498-1511 (with `t = time_ti`) and 1532-1539, 1544-1550. -/
noncomputable def uhPrimeAt (D : Disc V) (n : ℕ) (slab : ℕ → V) (minus : V) (t : ℝ) : V :=
  let tn : ℝ := n * D.dt
  let a := ufSum D.q (fun j => 1 / D.dt * dphi D.q j ((t - tn) / D.dt)) slab
  if 0 < n then
    a - (2 / D.dt * dThetaRef ((2 * t - (tn + D.dt + tn)) / D.dt)) • (slab 0 - minus)
  else a

/-- `assemble_scalar(form(inner(a - b, a - b) * dx))` (one rank). -/
def sqErr (S : Space V) (a b : V) : ℝ := S.mass (a - b) (a - b)

/-- `max(l)`: raises `ValueError` on an empty list. -/
noncomputable def pyMax : List ℝ → Py ℝ
  | [] => .error .valueError
  | a :: l => .ok (l.foldl max a)

/-- `math.sqrt`: raises `ValueError` on a negative argument. -/
noncomputable def mathSqrt (x : ℝ) : Py ℝ := if x < 0 then .error .valueError else .ok (Real.sqrt x)

/-- Local variables of `measured_errors` carried through the slab loop. -/
structure ErrAcc where
  intIdx : ℤ
  su : List ℝ         -- l2_error_at_samples
  sut : List ℝ        -- l2_error_dt_at_samples
  total : ℝ           -- total_error_l2l2_dt

/-- space_time.py:1481-1489: load the slab's coefficients. -/
def errLoad (n : ℕ) (intIdx : ℤ) : WM V Unit := do
  let dm ← M.attr (fun w => w.obj.dofmaps) .typeError
  if 0 < n then
    let i ← M.lift (pyIdx (dm.full 0) (intIdx - 1))
    copyTop .u1Minus .uh i
  M.forList (List.range (C.D.q + 1)) fun (ell : ℕ) => do
    let i ← M.lift (pyIdx (dm.full 0) (intIdx + ell))
    copyTop (.u1Slab ell) .uh i

/-- space_time.py:1491-1519 -/
noncomputable def errQuad (n : ℕ) (slab : ℕ → V) (minus : V) (total : ℝ) : WM V ℝ :=
  M.forAcc (C.ptsHo.zip C.wsHo) total fun total p => do
    let t : ℝ := n * C.D.dt + C.D.dt * p.1
    ext
    return total + p.2 * C.D.dt * sqErr C.S (uhPrimeAt C.D n slab minus t) (C.dsol t)

/-- space_time.py:1521-1570.  `np.sqrt` is the real square root (`nan` for a negative argument is not
modelled). -/
noncomputable def errSamples (n : ℕ) (slab : ℕ → V) (minus : V) (acc : List ℝ × List ℝ) :
    WM V (List ℝ × List ℝ) :=
  M.forAcc C.samples acc fun acc t =>
    if t ≥ n * C.D.dt ∧ t ≤ n * C.D.dt + C.D.dt then do
      ext
      return (acc.1 ++ [Real.sqrt (sqErr C.S (uhAt C.D n slab minus t) (C.D.sol t))],
        acc.2 ++ [Real.sqrt (sqErr C.S (uhPrimeAt C.D n slab minus t) (C.dsol t))])
    else return acc

/-- Body of the slab loop, space_time.py:1479-1572. -/
noncomputable def errBody (acc : ErrAcc) (n : ℕ) : WM V ErrAcc := do
  errLoad C n acc.intIdx
  let m ← getVec .u1Minus
  let w ← M.get
  let slab : ℕ → V := fun j => nodeFun C.fe (w.heap (.u1Slab j))
  let minus : V := nodeFun C.fe m
  let total ← errQuad C n slab minus acc.total
  let s ← errSamples C n slab minus (acc.su, acc.sut)
  return ⟨acc.intIdx + (C.D.q + 1), s.1, s.2, total⟩

/-- `measured_errors(u_inp)`, space_time.py:1452-1582, one MPI rank. -/
noncomputable def measuredErrors (u : Ref) : WM V ErrDict := do
  loadFinal C u
  ext
  let u10 ← M.attr (fun w => w.obj.u10)
  let l2T := Real.sqrt (sqErr C.S u10 (C.D.sol C.T))
  let acc ← M.forAcc (List.range C.D.N) ⟨0, [], [], 0⟩ (errBody C)
  let mu ← M.lift (pyMax acc.su)
  let mut_ ← M.lift (pyMax acc.sut)
  let r ← M.lift (mathSqrt acc.total)
  return ⟨l2T, mu, mut_, r⟩

/-- `plot_para_view(uh_inp)`, space_time.py:1829-1866: effects on the object only. -/
noncomputable def plotParaView (u : Ref) : WM V Unit := do
  loadFinal C u
  ext

/-! ### Plot tables -/

/-- Local arrays of `plot` and `plot_error`. -/
structure PlotSt (V : Type) where
  ts : List ℝ := []                       -- ts
  slab : ℕ → V                            -- u1_slab_plot
  vals : ℕ → ℕ → ℝ := fun _ _ => 0        -- space_val_ti
  cells : List (ℕ × ℕ × List ℝ) := []     -- assignments tab[row, col] = … to all tables, in order

/-- `np.linspace(0.0, 1.0, num=k, endpoint=False)` -/
noncomputable def linspace01 (k : ℕ) : List ℝ := (List.range k).map fun (m : ℕ) => (m : ℝ) / k

/-- `sum([c(ell) * a[ell] for ell in range(q + 1)])` -/
noncomputable def pySum (q : ℕ) (c a : ℕ → ℝ) : ℝ := ((List.range (q + 1)).map fun ell => c ell * a ell).sum

/-- Loop body over time points, space_time.py:1634-1660 (1764-1789 in `plot_error`).  `g t j u d` are the
values assigned to the tables' entries for time `t`, point number `j`, value `u` and time derivative
`d` of the discrete solution.  All tables have shape `(n_time_subdiv * N, n_space)`; writing outside
raises `IndexError`. -/
noncomputable def plotCell (nSpace nSub : ℕ) (g : ℝ → ℕ → ℝ → ℝ → List ℝ) (n timeIdx j : ℕ) (p : ℝ × ℕ) :
    M (PlotSt V) Unit := do
  let tn : ℝ := n * C.D.dt
  let t := tn + C.D.dt * p.1
  if j = 0 then M.modify fun st => { st with ts := st.ts ++ [t] }
  let st ← M.get
  let u := pySum C.D.q (fun ell => phi C.D.q ell ((t - tn) / C.D.dt)) fun ell => st.vals ell j
  let d := pySum C.D.q (fun ell => 1 / C.D.dt * dphi C.D.q ell ((t - tn) / C.D.dt)) fun ell => st.vals ell j
  if ¬ (timeIdx + p.2 < nSub * C.D.N ∧ j < nSpace) then M.raise .indexError
  M.modify fun st => { st with cells := st.cells ++ [(timeIdx + p.2, j, g t j u d)] }

/-- The sampling loops of `plot` (space_time.py:1618-1663) and `plot_error` (1748-1792) for the vector `v`.
`ev j` is the value of a function at evaluation point number `j`. -/
noncomputable def plotLoop (dm : Dofmaps) (nSpace nSub : ℕ) (ev : ℕ → V → ℝ) (g : ℝ → ℕ → ℝ → ℝ → List ℝ) (v : Vec) :
    M (PlotSt V) Unit := do
  let _ ← M.forAcc (List.range C.D.N) ((0 : ℤ), (0 : ℕ)) fun c n => do
    M.forList (List.range (C.D.q + 1)) fun ell => do
      let i ← M.lift (pyIdx (dm.full 0) (c.1 + ell))
      M.modify fun st => { st with slab := Function.update st.slab ell (nodeAt C.fe v i) }
    M.forList (List.range (C.D.q + 1)) fun ell =>
      M.modify fun st => { st with vals := Function.update st.vals ell fun j => ev j (st.slab ell) }
    M.forList (List.range nSpace) fun j =>
      M.forList (linspace01 nSub).zipIdx (plotCell C nSpace nSub g n c.2 j)
    return (c.1 + (C.D.q + 1), c.2 + nSub)

/-- Tables of `plot`: `fun_val`, `dt_fun_val`. -/
def plotEntries (trafo : ℝ → ℝ) : ℝ → ℕ → ℝ → ℝ → List ℝ := fun _ _ u d => [trafo u, trafo d]

/-- Tables of `plot_error`: `fun_val`, `err_val`, `dt_fun_val`, `dt_err_val`; `ue t j`, `dte t j` are the exact
solution and its derivative at time `t` and point number `j`. -/
def plotErrorEntries (ue dte : ℝ → ℕ → ℝ) : ℝ → ℕ → ℝ → ℝ → List ℝ :=
  fun t j u d => [u, |u - ue t j|, d, |d - dte t j|]

/-- The calls: `plot` (space_time.py:1584-1713) and `plot_error` (1715-1827) read the index tables and the vector, fill
their tables and pass the time axis and the tables to the plotting library (`ext`).  `fem.Function`s start with zeros. -/
noncomputable def plotTables (nSpace nSub : ℕ) (ev : ℕ → V → ℝ) (g : ℝ → ℕ → ℝ → ℝ → List ℝ) (u : Ref) :
    WM V (List ℝ × List (ℕ × ℕ × List ℝ)) := do
  let dm ← M.attr (fun w => w.obj.dofmaps)
  let v ← getVec u
  match plotLoop C dm nSpace nSub ev g v { slab := 0 } with
  | (.ok (), st) => do
    ext
    return (st.ts, st.cells)
  | (.error e, _) => M.raise e

end Dxss
