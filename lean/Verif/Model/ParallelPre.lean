import Verif.Model.Parallel

/-! # The time-marching preconditioner on one rank of several

`Vec.array` (of `b`, `x_sol`, `b_rhs_pre`, `vec_0_bnd_in`, `vec_0_bnd_out`) holds the owned entries; `uh_pre.x.array` holds
owned and ghost entries, the latter up to date after `scatter_forward`. -/

namespace Dxss.Par

/-- What the preconditioner uses besides `Rank`: the interface space, the product with
`scaled_mass_matrix_between_slices` on owned parts, and the two slab solvers. -/
structure PreRank extends Rank where
  bnd : FSpace
  bndOwned : ℕ
  bndMult : Arr → Arr
  /-- Contents of `uh_pre.x.array` after `solve(b_rhs_pre, uh_pre.vector)` and `scatter_forward()`, space_time.py:1288-1293;
  only calls in which the solver returns are considered. -/
  solveFirst : Arr → Arr
  solveSlab : Arr → Arr

/-- The work vectors of `pre_time_marching_improved` that survive a slab, and `x_sol`.  (`vec_0_bnd_in`,
`vec_0_bnd_out` and `uh_pre` are overwritten before they are read.) -/
structure PreSt where
  rhs : Arr
  out : Arr

variable (R : PreRank)

/-- space_time.py:1288-1293 -/
def PreRank.solve (n : ℕ) (rhs : Arr) : Arr := if n = 0 then R.solveFirst rhs else R.solveSlab rhs

/-- `pre_time_marching_improved`, loop body, space_time.py:1281-1322. -/
def PreRank.preBody (b : Arr) (s : PreSt) (n : ℕ) : Py PreSt := do
  let rhs ← (R.slabBlocks n).foldlM (fun a p => addTo a b p.1 p.2) s.rhs
  let uh := R.solve n rhs
  let bin ← addTo (List.replicate R.bndOwned 0) uh (R.bnd.collapse 0 0) (R.slab.collapse 0 R.q)
  let bin ← addTo bin uh (R.bnd.collapse 1 0) (R.slab.collapse 1 R.q)
  let bout := R.bndMult bin
  let rhs ← addTo (List.replicate rhs.length 0) bout (R.slab.collapse 0 0) (R.bnd.collapse 0 0)
  let rhs ← addTo rhs bout (R.slab.collapse 1 0) (R.bnd.collapse 1 0)
  let out ← (R.slabBlocks n).foldlM (fun a p => copy a uh p.2 p.1) s.out
  return ⟨rhs, out⟩

/-- `pre_time_marching_improved(b, x_sol)` without forward jumps, space_time.py:1260-1327, `b` and `x_sol` different vectors;
`rhs` and `x` are the contents found in `b_rhs_pre` and `x_sol`. -/
def PreRank.preTimeMarchingImproved (b rhs x : Arr) : Py Arr := do
  let s ← (List.range R.N).foldlM (R.preBody b) ⟨List.replicate rhs.length 0, x⟩
  return s.out

/-- One process. -/
noncomputable def preOfCfg {V : Type} [AddCommGroup V] [Module ℝ V] (C : Cfg V) (gF gS : Vec → Vec) : PreRank where
  toRank := ofCfg C
  bnd := C.bnd
  bndOwned := C.bnd.size
  bndMult := fun a => (List.range C.bnd.size).map ((bndMatOf C).mult fun d => a.getD d 0)
  solveFirst := fun a => (List.range C.slab.size).map (gF fun d => a.getD d 0)
  solveSlab := fun a => (List.range C.slab.size).map (gS fun d => a.getD d 0)

end Dxss.Par
