import Mathlib.Data.Rat.Defs

/-!
# Python-level conventions of the model
Exceptions are values.
-/

namespace Dxss

/-- The Python / PETSc exception classes that the modelled code can raise.
Models the exception *class* only, never the message. -/
inductive PyErr
  | keyError          -- dict lookup with a missing key
  | zeroDivision      -- division by zero of Python numbers
  | attributeError    -- attribute access on `None`, or a missing attribute
  | valueError
  | indexError
  | nameError
  | typeError
  | runtimeError
  | petscError        -- `PETSc.Error`
  | solverError       -- any exception raised inside a user-supplied solver object
  deriving DecidableEq, Repr

/-- Result of a Python call: a value or an exception. -/
abbrev Py (α : Type*) := Except PyErr α

/-- Python list indexing `l[i]` with an `int` index: a negative index counts from the end,
an index outside `[-len, len)` raises `IndexError` (here: `none`). -/
def pyGet? {α : Type*} (l : List α) (i : ℤ) : Option α :=
  if 0 ≤ i then l[i.toNat]? else
    if 0 ≤ (l.length : ℤ) + i then l[((l.length : ℤ) + i).toNat]? else none

end Dxss
