import Verif.Model.Forms
import Mathlib.Algebra.BigOperators.Group.Finset.Basic
import Mathlib.Data.Fin.VecNotation

/-!
# Finite element spaces, dof maps, assembled matrices and vectors
-/

namespace Dxss
open Finset

/-- A PETSc vector / numpy array as the function index ↦ entry.  Entries beyond the size are
irrelevant; `arr[:] = 0.0` is the zero function. -/
abbrev Vec := ℕ → ℝ

/-- Number of sub-components of the four mixed components of the full space-time space,
space_time.py:253-264. -/
def fullSizes (q qstar N : ℕ) : Fin 4 → ℕ := ![(q+1)*N, (q+1)*N, (qstar+1)*N, (qstar+1)*N]
/-- … of the slab space, space_time.py:309-322 -/
def slabSizes (q qstar : ℕ) : Fin 4 → ℕ := ![q+1, q+1, qstar+1, qstar+1]
/-- … of the coupling space, space_time.py:289-292 -/
def couplingSizes : Fin 4 → ℕ := ![2, 2, 0, 0]
/-- … of the slab interface space, space_time.py:300-302 -/
def bndSizes : Fin 4 → ℕ := ![1, 1, 0, 0]

/-- What DOLFINx returns for a mixed function space: its number of dofs and, for every
sub-component, the list `V.sub(c).sub(i).collapse()[1]` which maps the dofs of the collapsed
(scalar) space to dofs of `V`.  (For the interface space, whose vectors have length one, the code
uses `V.sub(c).collapse()[1]`; this is `collapse c 0`.)  One MPI rank. -/
structure FSpace where
  size : ℕ
  nsub : Fin 4 → ℕ
  collapse : Fin 4 → ℕ → List ℕ

/-- The scalar spaces: `m c` basis functions `basis c 0, basis c 1, …`; components 0, 1 use
`CG k`, components 2, 3 use `CG kstar`. -/
structure FE (V : Type) where
  mP : ℕ
  bP : ℕ → V
  mD : ℕ
  bD : ℕ → V

variable {V : Type}

def FE.m (fe : FE V) : Fin 4 → ℕ := ![fe.mP, fe.mP, fe.mD, fe.mD]
def FE.basis (fe : FE V) : Fin 4 → ℕ → V := ![fe.bP, fe.bP, fe.bD, fe.bD]

/-- Parent dof of spatial dof `s` of sub-component `(c, i)`. -/
def FSpace.dof (L : FSpace) (c : Fin 4) (i s : ℕ) : ℕ := (L.collapse c i).getD s 0

/-- The contract of DOLFINx' dof maps: each has the length of the scalar space, and together they
number the dofs `0 … size-1` without repetition. -/
structure FSpace.Ok (L : FSpace) (m : Fin 4 → ℕ) : Prop where
  len : ∀ c i, i < L.nsub c → (L.collapse c i).length = m c
  lt : ∀ c i s, i < L.nsub c → s < m c → L.dof c i s < L.size
  inj : ∀ c i s c' i' s', i < L.nsub c → s < m c → i' < L.nsub c' → s' < m c' →
    L.dof c i s = L.dof c' i' s' → c = c' ∧ i = i' ∧ s = s'
  surj : ∀ d < L.size, ∃ c i s, i < L.nsub c ∧ s < m c ∧ L.dof c i s = d

section
variable [AddCommGroup V] [Module ℝ V]

/-- The discrete function with coefficient vector `x`. -/
noncomputable def FSpace.field (L : FSpace) (fe : FE V) (x : Vec) : Field V := fun c i =>
  if 0 ≤ i ∧ i < L.nsub c then ∑ s ∈ range (fe.m c), x (L.dof c i.toNat s) • fe.basis c s else 0

/-- The `d`-th unit vector. -/
def unitVec (d : ℕ) : Vec := fun i => if i = d then 1 else 0

/-- An assembled PETSc matrix. -/
structure Mat where
  size : ℕ
  a : ℕ → ℕ → ℝ

/-- `A.mult(x, y)`: the new content of `y`. -/
def Mat.mult (A : Mat) (x : Vec) : Vec := fun d => ∑ d' ∈ range A.size, A.a d d' * x d'

/-- `assemble_matrix(fem.form(F))`: row = test function, column = trial function. -/
noncomputable def assemble (S : Space V) (ind : V) (fe : FE V) (L : FSpace) (F : List Term) : Mat where
  size := L.size
  a d d' := if d < L.size then
    evalForm S ind F (L.field fe (unitVec d')) (L.field fe (unitVec d)) else 0

/-- `assemble_vector(b, fem.form(F))` into a zero vector. -/
noncomputable def assembleVec (S : Space V) (ind : V) (fe : FE V) (L : FSpace) (F : List (LTerm V)) : Vec :=
  fun d => if d < L.size then evalLin S ind F (L.field fe (unitVec d)) else 0
end

end Dxss
