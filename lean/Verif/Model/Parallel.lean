import Verif.Model.SpaceTime

/-!
# The same code on one rank of several

On a rank, DOLFINx numbers the dofs the rank owns first and the ghost dofs (owned by another rank) after
them; dof maps contain both.  `Function.x.array` has an entry for each, whereas `Vec.array` of a PETSc
vector holds the owned entries only.  Arrays are lists here, so that their lengths count.
-/

namespace Dxss.Par
variable {V : Type} [AddCommGroup V] [Module ℝ V]

/-- A one-dimensional numpy array of floats. -/
abbrev Arr := List ℝ

/-- `dst[:] = src`: the new content of `dst`. -/
def assignAll (dst src : Arr) : Py Arr :=
  if src.length = dst.length then .ok src
  else match src with
    | [a] => .ok (List.replicate dst.length a)
    | _ => .error .valueError

/-- `a[idx]` with an array of non-negative indices. -/
def take (a : Arr) (idx : List ℕ) : Py Arr :=
  if ∀ i ∈ idx, i < a.length then .ok (idx.map fun i => a.getD i 0) else .error .indexError

/-- `a[idx] = vals`: the new content of `a`. -/
def put (a : Arr) (idx : List ℕ) (vals : Arr) : Py Arr :=
  if ∀ i ∈ idx, i < a.length then
    if vals.length = idx.length then .ok ((idx.zip vals).foldl (fun a p => a.set p.1 p.2) a)
    else match vals with
      | [x] => .ok (idx.foldl (fun a i => a.set i x) a)
      | _ => .error .valueError
  else .error .indexError

/-- `a + b`, with numpy's broadcasting of arrays of length one. -/
def add (a b : Arr) : Py Arr :=
  if a.length = b.length then .ok (List.zipWith (· + ·) a b)
  else match a, b with
    | [x], b => .ok (b.map (x + ·))
    | a, [y] => .ok (a.map (· + y))
    | _, _ => .error .valueError

/-- `dst[idx] = src[idx']` -/
def copy (dst src : Arr) (idx idx' : List ℕ) : Py Arr := do put dst idx (← take src idx')
/-- `dst[idx] += src[idx']` -/
def addTo (dst src : Arr) (idx idx' : List ℕ) : Py Arr := do
  let a ← take dst idx
  let b ← take src idx'
  put dst idx (← add a b)

/-- What one rank sees of the spaces of an object: the dof maps of its part (`size` counts owned and ghost dofs), the
numbers of owned dofs, and the products with the two matrices as maps of the owned parts. -/
structure Rank where
  q : ℕ
  qstar : ℕ
  N : ℕ
  full : FSpace
  slab : FSpace
  coup : FSpace
  fullOwned : ℕ
  slabOwned : ℕ
  coupOwned : ℕ
  slabMult : Arr → Arr          -- slab_matrix_no_dg_jumps.mult (collective)
  coupMult : Arr → Arr          -- coupling_matrix_between_slices.mult (collective)

/-- The sequential program: one rank, which owns every dof. -/
noncomputable def ofCfg (C : Cfg V) : Rank where
  q := C.D.q
  qstar := C.D.qstar
  N := C.D.N
  full := C.full
  slab := C.slab
  coup := C.coup
  fullOwned := C.full.size
  slabOwned := C.slab.size
  coupOwned := C.coup.size
  slabMult := fun a => (List.range C.slab.size).map ((slabMatOf C false).mult fun d => a.getD d 0)
  coupMult := fun a => (List.range C.coup.size).map ((coupMatOf C).mult fun d => a.getD d 0)

variable (R : Rank)

def Rank.order (j : Fin 4) : ℕ := if j = 0 ∨ j = 1 then R.q else R.qstar

/-- `for j in range(4): for ell in range(subspace_time_order[j] + 1)`: the pairs `(dofmaps_pre[j][ell],
dofmaps_full[j][shift_idx + ell])` in slab `n`.  The running index is in closed form (see `Counters`). -/
def Rank.slabBlocks (n : ℕ) : List (List ℕ × List ℕ) :=
  ([0, 1, 2, 3] : List (Fin 4)).flatMap fun j => (List.range (R.order j + 1)).map fun ell =>
    (R.slab.collapse j ell, R.full.collapse j (n * (R.order j + 1) + ell))

/-- `for j in range(2): for i in range(2)`: the pairs `(dofmaps_coupling[j][i], dofmaps_full[j][coupling_idx_q + i])`. -/
def Rank.coupBlocks (n : ℕ) : List (List ℕ × List ℕ) :=
  ([0, 1] : List (Fin 4)).flatMap fun j => (List.range 2).map fun i =>
    (R.coup.collapse j i, R.full.collapse j (n * (R.q + 1) - 1 + i))

/-- The local vectors of `apply_spacetime_matrix`: `vec_slab1`, `vec_coupling1`, `vec_out`. -/
structure MfSt where
  slab1 : Arr
  coup1 : Arr
  out : Arr

/-- `apply_spacetime_matrix`, loop body, space_time.py:1143-1184. -/
def Rank.mfBody (vecIn : Arr) (s : MfSt) (n : ℕ) : Py MfSt := do
  let slab1 ← (R.slabBlocks n).foldlM (fun a p => copy a vecIn p.1 p.2) s.slab1
  let slab2 := R.slabMult slab1
  let out ← (R.slabBlocks n).foldlM (fun a p => addTo a slab2 p.2 p.1) s.out
  if n = 0 then return ⟨slab1, s.coup1, out⟩
  else
    let coup1 ← (R.coupBlocks n).foldlM (fun a p => copy a vecIn p.1 p.2) s.coup1
    let coup2 := R.coupMult coup1
    let out ← (R.coupBlocks n).foldlM (fun a p => addTo a coup2 p.2 p.1) out
    return ⟨slab1, coup1, out⟩

/-- `apply_spacetime_matrix(vec_in, vec_out)` on a rank, space_time.py:1135-1184; `slab1`, `coup1`, `out` are the
contents found in the work vectors. -/
def Rank.applySpacetimeMatrix (vecIn slab1 coup1 out : Arr) : Py Arr := do
  let s ← (List.range R.N).foldlM (R.mfBody vecIn) ⟨slab1, coup1, List.replicate out.length 0⟩
  return s.out

/-- `self.uh.x.array[:] = u_inp.array[:]`, space_time.py:1459 and 1830; `plot` and `plot_error` do the same with a function of their own, 1596 and 1717: the first statement of
`measured_errors` and `plot_para_view` that touches data.  `uh` is the content of the array (owned and ghost
entries), `u` the owned part of the argument. -/
def loadInput (uh u : Arr) : Py Arr := assignAll uh u

/-! ### Right-hand side -/

/-- A mesh distributed over ranks: cell `c < cells` belongs to rank `cellRank c`, dof `d` to rank
`dofRank d`, and `part c` are the spatial integrals over cell `c`. -/
structure Mesh (V : Type) [AddCommGroup V] [Module ℝ V] where
  cells : ℕ
  cellRank : ℕ → ℕ
  dofRank : ℕ → ℕ
  part : ℕ → Space V

/-- `assemble_vector(b, form)` on rank `r` (owned and ghost entries): the integrals over the cells the rank owns.
Entries are named by their global number. -/
noncomputable def assembleOn (M : Mesh V) (ind : V) (fe : FE V) (L : FSpace) (F : List (LTerm V)) (r : ℕ) : Vec := fun d =>
  ∑ c ∈ (Finset.range M.cells).filter (fun c => M.cellRank c = r), evalLin (M.part c) ind F (L.field fe (unitVec d))

/-- The vector `SpaceTimeRhs` after `setup_rhs`, space_time.py:784-792, on several ranks: each entry is the one on the
rank that owns the dof.  There is no `ghostUpdate` after `assemble_vector`. -/
noncomputable def rhsOn (M : Mesh V) (C : Cfg V) (u10 u20 : V) : Vec := fun d =>
  if d < C.full.size then
    assembleOn M C.D.ind C.fe C.full (C.D.rhsForm C.S C.pts C.ws u10 u20) (M.dofRank d) d
  else 0

end Dxss.Par
