import Verif.Model.Meshes
import Mathlib.MeasureTheory.Measure.Lebesgue.Basic
import Mathlib.MeasureTheory.Integral.Prod

/-!
# The subdomains of the planar meshes

The operations of gmsh's OpenCASCADE kernel as operations on planar sets.  Boundaries have no area, so it does not matter
that `cut` leaves the boundary of the removed rectangle out.
-/

namespace Dxss
open MeasureTheory

/-- A planar set. -/
abbrev Region := Set (ℝ × ℝ)

/-- `occ.addRectangle(x, y, 0, dx, dy)` -/
def rectangle (x y dx dy : ℝ) : Region := Set.Icc x (x + dx) ×ˢ Set.Icc y (y + dy)

/-- `occ.cut([a], [b])` -/
def cutRegion (a b : Region) : Region := a \ b

/-- One more set is added to a family of disjoint pieces. -/
def fragmentStep (pieces : List Region) (s : Region) : List Region :=
  (pieces.flatMap fun p => [p ∩ s, p \ s]) ++ [pieces.foldl (· \ ·) s]

open Classical in
/-- `occ.fragment(objects, tools)`: the pieces into which the sets cut one another; pieces without area do not count.
gmsh would split a piece that is not connected; all pieces below are connected. -/
noncomputable def fragment (sets : List Region) : List Region :=
  (sets.foldl fragmentStep []).filter fun p => volume p ≠ 0

/-- `occ.getCenterOfMass(2, tag)` -/
noncomputable def centreOfMass (p : Region) : ℝ × ℝ × ℝ :=
  ((∫ z in p, z.1) / (volume p).toReal, (∫ z in p, z.2) / (volume p).toReal, 0)

/-- The surfaces of `create_initial_mesh_convex` and `get_mesh_hierarchy`: meshes.py:38-50, 140-152.  The two pieces of
the first `fragment` keep the tags 3 and 4. -/
noncomputable def convexSurfaces : List Region :=
  let r1 := rectangle 0 0 1 1
  let r2 := rectangle 0.1 0.25 0.8 0.75
  let r3 := cutRegion r1 r2
  let r4 := rectangle 0.1 0.25 0.8 0.7
  let tmp := rectangle 0.1 0.95 0.8 0.05
  fragment (fragment [r3, r4] ++ [tmp])

/-- The surfaces of `get_mesh_hierarchy_nonconvex`: meshes.py:244-248. -/
noncomputable def nonconvexSurfaces : List Region :=
  let r1 := rectangle 0.25 0.05 0.5 0.45
  let r2 := rectangle 0.125 0.05 0.75 0.9
  let r3 := rectangle 0 0 1 1
  fragment [r3, r1, r2]

/-- The surfaces of `get_mesh_data_all_around`: meshes.py:776-785. -/
noncomputable def allAroundSurfaces : List Region :=
  let r1 := rectangle 0 0 1 1
  let r2 := rectangle 0.2 0.2 0.6 0.6
  let r3 := cutRegion r1 r2
  let r4 := rectangle 0.2 0.2 0.6 0.6
  fragment [r3, r4]

/-- The groups added for the surfaces of a builder, numbered from 1 (`getEntities`). -/
noncomputable def surfaceGroups (mark : ℝ × ℝ × ℝ → ℕ) (surfaces : List Region) : List Group :=
  regionGroups mark ((surfaces.zipIdx 1).map fun p => (p.2, centreOfMass p.1))

end Dxss
