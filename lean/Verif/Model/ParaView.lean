import Verif.Model.Errors

/-!
# The files written by `plot_para_view`
-/

namespace Dxss
variable {V : Type} [AddCommGroup V] [Module ℝ V] (C : Cfg V)

/-- An XDMF file with the mesh and one function: its path, the name of the function, and the values
at the nodes of the scalar space. -/
structure XFile where
  path : String
  label : String
  values : List ℝ

/-- `np.abs(a - b)` for two arrays of the same space. -/
def absDiff (a b : List ℝ) : List ℝ := List.zipWith (fun x y => |x - y|) a b

/-- `plot_para_view(uh_inp, name)`, space_time.py:1829-1866, with the files it writes; `plotParaView`
is the same function without them.  `interp1`, `interp2` are `f.interpolate(expr)` on `fes_u1_0` and
`fes_u2_0`: the array of the interpolant.  Printing is omitted; all calls which may fail are put
together in one. -/
noncomputable def plotParaViewFiles (interp1 interp2 : V → List ℝ) (u : Ref) (name : String := "abserr") :
    WM V (List XFile) := do
  loadFinal C u                                                             -- 1830-1835
  let dm ← M.attr (fun w => w.obj.dofmaps)
  let h ← getVec .uh
  let i0 ← M.lift (pyIdx (dm.full 0) (-1))
  let u10 := i0.map h                                                       -- u1_0.x.array
  let i1 ← M.lift (pyIdx (dm.full 1) (-1))
  let u20 := i1.map h                                                       -- u2_0.x.array
  ext
  let uExact := interp1 (C.D.sol C.T)                                       -- 1843, 1846-1847
  let utExact := interp2 (C.dsol C.T)                                       -- 1844, 1849-1853
  let uDiff := absDiff uExact u10                                           -- 1855
  let utDiff := absDiff utExact u20                                         -- 1856
  return [⟨name ++ "-u.xdmf", "u-abserr", uDiff⟩, ⟨name ++ "-ut.xdmf", "ut-abserr", utDiff⟩]  -- 1859-1866

end Dxss
