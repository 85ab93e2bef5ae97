import Verif.Model.Monad
import Mathlib.Data.Real.Basic

/-!
# meshes.py

Modelled: the refinement loops, the version switch, the node reordering and the cell table of the builders
without files, the physical groups, and the rectangles of `get_mesh_bottom_data`.  gmsh, meshio and DOLFINx are
represented by what they return.  The order of file accesses by several processes is in `Model/MeshFiles.lean`.
-/

namespace Dxss

/-! ## Versions

`packaging.version.Version`, PEP 440; comparison of versions is comparison of the tuples built by `_cmpkey`. -/

/-- One segment of a local version label. -/
inductive LocalSeg
  | num (n : ℕ)
  | str (s : String)
  deriving DecidableEq

/-- The kinds of pre-release: `a`, `b`, `rc`. -/
inductive PreKind
  | a | b | rc
  deriving DecidableEq

def PreKind.toNat : PreKind → ℕ
  | .a => 0 | .b => 1 | .rc => 2

/-- The parsed version. -/
structure PyVersion where
  epoch : ℕ := 0
  release : List ℕ
  pre : Option (PreKind × ℕ) := none
  post : Option ℕ := none
  dev : Option ℕ := none
  loc : Option (List LocalSeg) := none

/-- A tuple entry, or one of the two sentinels. -/
inductive Ext (α : Type)
  | negInf
  | val (a : α)
  | posInf

def Ext.cmp {α : Type} (c : α → α → Ordering) : Ext α → Ext α → Ordering
  | .negInf, .negInf => .eq
  | .negInf, _ => .lt
  | .posInf, .posInf => .eq
  | .posInf, _ => .gt
  | .val _, .negInf => .gt
  | .val _, .posInf => .lt
  | .val a, .val b => c a b

/-- Comparison of Python tuples. -/
def tupleCmp {α : Type} (c : α → α → Ordering) : List α → List α → Ordering
  | [], [] => .eq
  | [], _ :: _ => .lt
  | _ :: _, [] => .gt
  | a :: l, b :: l' => (c a b).then (tupleCmp c l l')

def preCmp (a b : PreKind × ℕ) : Ordering := (compare a.1.toNat b.1.toNat).then (compare a.2 b.2)

/-- A number compares as `(n, "")`, a string as `(-∞, s)`. -/
def localCmp : LocalSeg → LocalSeg → Ordering
  | .num a, .num b => compare a b
  | .num _, .str _ => .gt
  | .str _, .num _ => .lt
  | .str a, .str b => compare a b

/-- `_cmpkey`: trailing zeros of the release are dropped. -/
def stripZeros (l : List ℕ) : List ℕ := (l.reverse.dropWhile (· == 0)).reverse

structure VersionKey where
  epoch : ℕ
  release : List ℕ
  pre : Ext (PreKind × ℕ)
  post : Ext ℕ
  dev : Ext ℕ
  loc : Ext (List LocalSeg)

def PyVersion.key (v : PyVersion) : VersionKey where
  epoch := v.epoch
  release := stripZeros v.release
  pre := match v.pre, v.post, v.dev with
    | none, none, some _ => .negInf
    | none, _, _ => .posInf
    | some p, _, _ => .val p
  post := match v.post with
    | none => .negInf
    | some n => .val n
  dev := match v.dev with
    | none => .posInf
    | some n => .val n
  loc := match v.loc with
    | none => .negInf
    | some l => .val l

def VersionKey.cmp (a b : VersionKey) : Ordering :=
  (compare a.epoch b.epoch).then <| (tupleCmp compare a.release b.release).then <|
  (Ext.cmp preCmp a.pre b.pre).then <| (Ext.cmp compare a.post b.post).then <|
  (Ext.cmp compare a.dev b.dev).then (Ext.cmp (tupleCmp localCmp) a.loc b.loc)

/-- `v < w` -/
def PyVersion.ltB (v w : PyVersion) : Bool := v.key.cmp w.key == .lt

/-- `Version("0.7")` -/
def v07 : PyVersion := { release := [0, 7] }

/-! ## Refinement -/

/-- What is used of DOLFINx meshes.  A mesh is an object with a name in `Mesh`. -/
structure MeshLib (Mesh : Type) where
  /-- number of cells -/
  numCells : Mesh → ℕ
  /-- coordinates of the vertices of a cell -/
  verts : Mesh → ℕ → List (ℕ → ℝ)
  /-- number of edges -/
  numEdges : Mesh → ℕ
  /-- edge `e` belongs to cell `c` -/
  incident : Mesh → ℕ → ℕ → Bool
  /-- `refine(mesh, edges)`; `none`: all edges -/
  refine : Mesh → Option (List ℕ) → Mesh
  /-- the installed `compute_incident_entities` takes a topology (and rejects a mesh) -/
  takesTopology : Bool

/-- The builders that return a refined hierarchy. -/
inductive Builder
  | hierarchy      -- get_mesh_hierarchy, meshes.py:124-229
  | nonconvex      -- get_mesh_hierarchy_nonconvex, meshes.py:232-321
  | fittedDisc     -- get_mesh_hierarchy_fitted_disc, meshes.py:324-431
  | dataAllAround  -- get_mesh_data_all_around, meshes.py:766-866
  | data3d         -- get_3d_mesh_data_all_around, meshes.py:869-932
  deriving DecidableEq

/-- First argument of `compute_incident_entities`. -/
inductive MeshArg
  | mesh | topology
  deriving DecidableEq

/-- meshes.py:226 (hierarchy), 316 (nonconvex), 427 (fitted disc): always the mesh; meshes.py:859-863: depends on the
installed version. -/
def incidentArg (b : Builder) (installed : PyVersion) : MeshArg :=
  match b with
  | .dataAllAround => if installed.ltB v07 then .mesh else .topology
  | _ => .mesh

variable {Mesh : Type} [DecidableEq Mesh] (L : MeshLib Mesh)

/-- Entities created so far (`create_entities` changes the topology of the mesh object). -/
abbrev Created (Mesh : Type) := List (Mesh × ℕ)

/-- `mesh.topology.create_entities(d)` -/
def createEntities (m : Mesh) (d : ℕ) : M (Created Mesh) Unit := M.modify fun s => (m, d) :: s

/-- `refine_all`: meshes.py:220-221, 310-311, 421-422, 850-851 -/
noncomputable def refineAll (x : ℕ → ℝ) : Bool := decide (0 ≤ x 0)

/-- `locate_entities(mesh, dim, marker)`: the cells all of whose vertices are marked. -/
def locateCells (m : Mesh) (marker : (ℕ → ℝ) → Bool) : List ℕ :=
  (List.range (L.numCells m)).filter fun c => (L.verts m c).all marker

/-- `compute_incident_entities(arg, cells, 2, 1)`: raises TypeError for the wrong kind of argument and RuntimeError
if the edges have not been created. -/
def incidentEdges (m : Mesh) (arg : MeshArg) (cells : List ℕ) : M (Created Mesh) (List ℕ) := do
  let s ← M.get
  if (arg = .topology) ≠ (L.takesTopology = true) then M.raise .typeError
  else if (m, 1) ∈ s then
    return (List.range (L.numEdges m)).filter fun e => cells.any fun c => L.incident m c e
  else M.raise .runtimeError

/-- `refine(mesh, edges)`: raises RuntimeError if the edges have not been created. -/
def refineMesh (m : Mesh) (edges : Option (List ℕ)) : M (Created Mesh) Mesh := do
  let s ← M.get
  if (m, 1) ∈ s then return L.refine m edges else M.raise .runtimeError

/-- The body of the refinement loop: meshes.py:224-227, 314-318, 425-429, 854-864; 3D: meshes.py:928-930. -/
noncomputable def refineStep (b : Builder) (installed : PyVersion) (m : Mesh) : M (Created Mesh) Mesh :=
  match b with
  | .data3d => do
    createEntities m 2
    createEntities m 1
    refineMesh L m none
  | _ => do
    createEntities m 1
    let cells := locateCells L m refineAll
    let edges ← incidentEdges L m (incidentArg b installed) cells
    refineMesh L m (some edges)

/-- The refinement loop with `mesh_hierarchy` (meshes.py:217-229, 307-321, 418-431, 847-866, 923-932), started from the
initial mesh. -/
noncomputable def hierarchy (b : Builder) (installed : PyVersion) (nRef : ℕ) (m₀ : Mesh) :
    M (Created Mesh) (List Mesh) := do
  let r ← M.forAcc (List.range nRef) (m₀, [m₀]) fun acc _i => do
    let m ← refineStep L b installed acc.1
    return (m, acc.2 ++ [m])
  return r.2

/-- `get_mesh_convex`, meshes.py:116-121; `create` is `create_initial_mesh_convex`. -/
noncomputable def getMeshConvex {σ : Type} (create : ℝ → M σ Mesh) (nRef : ℕ) (h : ℝ) : M σ (List Mesh) :=
  M.forAcc (List.range nRef) [] fun acc j => do
    let hj := h / 2 ^ j
    let m ← create hj
    return acc ++ [m]

/-! ## Nodes and cells of the builders without files -/

/-- meshes.py:489, 621, 726: `[point for i, point in enumerate(points) if (i + 1) % 3 != 0]` -/
def dropThird {α : Type} (points : List α) : List α :=
  (points.zipIdx.filter fun p => (p.2 + 1) % 3 != 0).map (·.1)

/-- `.reshape(-1, k)` of a flat list; `ValueError` if the length is not a multiple of `k`. -/
def reshape {α : Type} (k : ℕ) (l : List α) : Py (List (List α)) :=
  if l.length % k = 0 then .ok ((List.range (l.length / k)).map fun i => (l.drop (i * k)).take k) else .error .valueError

/-- `idx -= 1` for an unsigned 64-bit number. -/
def pred64 (n : ℕ) : ℕ := (n + (2 ^ 64 - 1)) % 2 ^ 64

/-- `np.argsort` (a stable sort; for distinct keys the choice of algorithm does not matter) -/
def argsort (idx : List ℕ) : List ℕ :=
  (List.range idx.length).mergeSort fun i j => idx.getD i 0 ≤ idx.getD j 0

/-- `a[srt]` for the rows of an array; IndexError if an index is too large. -/
def takeRows {α : Type} (a : List α) : List ℕ → Py (List α)
  | [] => .ok []
  | i :: l => match a[i]? with
    | none => .error .indexError
    | some r => do
      let rest ← takeRows a l
      return r :: rest

/-- The rows `x` handed to `create_mesh`, from the result `(idx, points)` of `getNodes`:
meshes.py:488-497 (`get_mesh_inclusion`), 620-629 (`get_mesh_inclusion_square`), 725-734 (`get_mesh_bottom_data`).
`check` is the sequential-numbering test that raises; the code's is `seqCheck`. -/
def nodeRows (check : List ℕ → Bool) (tags : List ℕ) (coords : List ℝ) : Py (List (List ℝ)) := do
  let points ← reshape 2 (dropThird coords)
  let idx := tags.map pred64
  let srt := argsort idx
  let sorted ← takeRows idx srt
  if check sorted then .error .runtimeError
  else takeRows points srt

/-- meshes.py:494, 626, 731: `if np.all(idx[srt] == np.arange(len(idx))): raise RuntimeError` -/
def seqCheck (sorted : List ℕ) : Bool := sorted == List.range sorted.length

/-- The cell table: meshes.py:509, 516 (`get_mesh_inclusion`), 641, 648, 746, 753:
`node_tags[0].reshape(-1, num_nodes) - 1`, then columns permuted by `perm_gmsh`. -/
def cellTable (perm : List ℕ) (numNodes : ℕ) (nodeTags : List ℕ) : Py (List (List ℕ)) := do
  let rows ← reshape numNodes nodeTags
  rows.mapM fun r => takeRows (r.map pred64) perm

/-- What `get_mesh_inclusion` and `get_mesh_bottom_data` hand to `create_mesh`. -/
def meshArgs (check : List ℕ → Bool) (tags : List ℕ) (coords : List ℝ) (perm : List ℕ) (numNodes : ℕ)
    (nodeTags : List ℕ) : Py (List (List ℝ) × List (List ℕ)) := do
  let x ← nodeRows check tags coords
  let cells ← cellTable perm numNodes nodeTags
  return (x, cells)

/-- `get_mesh_inclusion` (meshes.py:434-526) and `get_mesh_bottom_data` (meshes.py:663-763) up to the call of
`create_mesh`. -/
def builderArgs := meshArgs seqCheck

/-- `get_mesh_inclusion_square`, meshes.py:529-660: `ufl_mesh_from_gmsh` (line 653) is not defined. -/
def inclusionSquareArgs (tags : List ℕ) (coords : List ℝ) (perm : List ℕ) (numNodes : ℕ) (nodeTags : List ℕ) :
    Py (List (List ℝ) × List (List ℕ)) := do
  let _ ← meshArgs seqCheck tags coords perm numNodes nodeTags
  .error .nameError

/-! ## Physical groups -/

/-- `np.isclose(a, b)`: `|a - b| ≤ atol + rtol * |b|` with the default tolerances -/
noncomputable def isclose (a b : ℝ) : Bool := decide (|a - b| ≤ 1e-8 + 1e-5 * |b|)

/-- `np.allclose(com, p)` -/
noncomputable def allclose3 (com p : ℝ × ℝ × ℝ) : Bool :=
  isclose com.1 p.1 && isclose com.2.1 p.2.1 && isclose com.2.2 p.2.2

/-- The surface markers of `create_initial_mesh_convex` and `get_mesh_hierarchy`: meshes.py:60-65, 162-167. -/
noncomputable def markConvex (com : ℝ × ℝ × ℝ) : ℕ :=
  if allclose3 com (0.5, 0.6, 0) then 2
  else if allclose3 com (0.5, 0.975, 0) then 3
  else 1

/-- The surface markers of `get_mesh_hierarchy_nonconvex`: meshes.py:254-259. -/
noncomputable def markNonconvex (com : ℝ × ℝ × ℝ) : ℕ :=
  if allclose3 com (0.5, 0.275, 0) then 1
  else if allclose3 com (0.5, 0.5, 0) then 2
  else 3

/-- A call `addPhysicalGroup(dim, tags, marker)`. -/
structure Group where
  dim : ℕ
  tags : List ℕ
  marker : ℕ

/-- The groups of the hierarchy builders, one call for each surface; a surface is a tag with its centre of mass. -/
noncomputable def regionGroups (mark : ℝ × ℝ × ℝ → ℕ) (surfaces : List (ℕ × ℝ × ℝ × ℝ)) : List Group :=
  surfaces.map fun s => ⟨2, [s.1], mark s.2⟩

/-- The loop `its = 1; for surface in …: addPhysicalGroup(2, [surface[1]], its); its += 1`: meshes.py:364-369, 463-468,
594-599, 708-713, 792-797, 900-905. -/
def countedGroups (surfaces : List ℕ) : List Group :=
  (surfaces.foldl (fun (acc : ℕ × List Group) s => (acc.1 + 1, acc.2 ++ [⟨2, [s], acc.1⟩])) (1, [])).2

/-- The test for boundary lines: meshes.py:71-76 and the same lines in the other builders. -/
noncomputable def onSide (com : ℝ × ℝ × ℝ) : Bool :=
  isclose com.1 0 || isclose com.1 1 || isclose com.2.1 0 || isclose com.2.1 1

/-- The loop over the lines and `addPhysicalGroup(1, bnd_square, bnd_marker)`: meshes.py:68-78 and the same lines in
the other builders. -/
noncomputable def boundaryGroup (lines : List (ℕ × ℝ × ℝ × ℝ)) : Group :=
  ⟨1, lines.foldl (fun acc l => if onSide l.2 then acc ++ [l.1] else acc) [], 1⟩

/-! ## Rectangles -/

/-- `addRectangle(x, y, 0, dx, dy)` -/
structure Rect where
  x : ℝ
  y : ℝ
  dx : ℝ
  dy : ℝ

/-- The rectangles of `get_mesh_bottom_data`, meshes.py:672-688, in the order of their tags 1 to 8:
omega, middle left, middle right, b minus, b plus (the upper target block), top left, top middle, top right. -/
noncomputable def bottomRects (eta : ℝ) : List Rect :=
  [⟨0.0, 0.0, 1.0, 0.25⟩, ⟨0, 0.25, 0.25, eta - 0.25⟩, ⟨0.75, 0.25, 0.25, eta - 0.25⟩, ⟨0.25, 0.25, 0.5, eta - 0.25⟩,
    ⟨0.25, eta, 0.5, 0.9 - eta⟩, ⟨0, eta, 0.25, 1.0 - eta⟩, ⟨0.25, eta, 0.5, 1.0 - eta⟩, ⟨0.75, eta, 0.25, 1.0 - eta⟩]

/-- The rectangles of `get_mesh_hierarchy_fitted_disc`, meshes.py:331-348: the outer block `r1`, the hole `r2` cut from it,
`b_minus`, `b_plus` and the top. -/
structure DiscRects where
  r1 : Rect
  r2 : Rect
  bMinus : Rect
  bPlus : Rect
  top : Rect

noncomputable def discRects (eta : ℝ) : DiscRects :=
  let yEta := eta - 0.25
  { r1 := ⟨0, 0, 1, eta⟩
    r2 := ⟨0.1, 0.25, 0.8, yEta⟩
    bMinus := ⟨0.1, 0.25, 0.8, yEta⟩
    bPlus := ⟨0.1, yEta, 0.8, 0.95 - yEta⟩
    top := ⟨0.0, yEta, 1.0, 1.0 - yEta⟩ }

end Dxss
