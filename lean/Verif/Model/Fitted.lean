import Verif.Model.Indicators
import Verif.Model.Regions
import Verif.Model.Scripts

/-!
# Interpolation of an indicator function into the space of cell-wise constants

space_time.py:145-150 intends, for a data domain marked `fitted`, to replace the indicator function by its interpolant in
the space `("DG", 0)`.  DOLFINx evaluates the function once for all cells, at their midpoints.  The meshes are those of
the scripts.
-/

namespace Dxss

/-- A cell: its interior and the interpolation point. -/
structure Cell where
  inner : Set (ℕ → ℝ)
  mid : ℕ → ℝ

/-- `Function(FunctionSpace(msh, ("DG", 0))).interpolate(f)`: the values on the cells -/
def interpolateDG0 (f : PointRows → Py (List ℝ)) (cells : List Cell) : Py (List ℝ) :=
  f fun k => cells.map fun c => c.mid k

/-- `create_unit_interval(comm, n)`, solve_1d.py:79: `n` intervals of equal length. -/
noncomputable def intervalMesh (n : ℕ) : List Cell := (List.range n).map fun i : ℕ =>
  ⟨{p | i / n < p 0 ∧ p 0 < (i + 1) / n}, fun _ => (i + 1 / 2) / n⟩

/-- `N_x = int(5 * N)`, solve_1d.py:64 -/
def nx1 (N : ℕ) : ℕ := 5 * N

/-- `create_box(comm, [(0,0,0), (1,1,1)], [n, n, n], hexahedron)`, solve_3d.py:92-98 -/
noncomputable def boxMesh (n : ℕ) : List Cell :=
  (List.range n).flatMap fun i : ℕ => (List.range n).flatMap fun j : ℕ => (List.range n).map fun k : ℕ =>
    let c : ℕ → ℝ := fun d => if d = 0 then i else if d = 1 then j else k
    ⟨{p | ∀ d < 3, c d / n < p d ∧ p d < (c d + 1) / n}, fun d => (c d + 1 / 2) / n⟩

/-- A point of the plane as a point with numbered coordinates. -/
def planePoint (z : ℝ × ℝ) : ℕ → ℝ := fun d => if d = 0 then z.1 else z.2

/-- What gmsh guarantees for a planar mesh of given surfaces: the interior of every cell is an open set inside one
surface, and contains the midpoint. -/
def MeshOf (surfaces : List Region) (cells : List Cell) : Prop :=
  ∀ c ∈ cells, ∃ s ∈ surfaces, ∃ u : Region, IsOpen u ∧ u ⊆ s ∧ c.inner = planePoint '' u ∧ c.mid ∈ c.inner

/-- What DOLFINx's `refine` guarantees: every new cell is part of an old one. -/
def RefinesTo (old new : List Cell) : Prop :=
  ∀ c ∈ new, c.mid ∈ c.inner ∧ ∃ c' ∈ old, c.inner ⊆ c'.inner

end Dxss
