import Verif.Model.Py

/-!
# Imperative Python code: state and exceptions

`M σ α` is a computation on a mutable state `σ` which returns a value or raises.  The state reached
when an exception is raised is kept, as in Python.
-/

namespace Dxss

def M (σ α : Type) := σ → Py α × σ

namespace M
variable {σ α β : Type}

def ret (a : α) : M σ α := fun s => (.ok a, s)
def bind' (x : M σ α) (f : α → M σ β) : M σ β := fun s =>
  match x s with
  | (.ok a, s') => f a s'
  | (.error e, s') => (.error e, s')

instance : Monad (M σ) where
  pure := ret
  bind := bind'

/-- `raise e`. -/
def raise (e : PyErr) : M σ α := fun s => (.error e, s)
def get : M σ σ := fun s => (.ok s, s)
def modify (f : σ → σ) : M σ Unit := fun s => (.ok (), f s)
/-- Use of a pure computation that may raise. -/
def lift (x : Py α) : M σ α := fun s => (x, s)
/-- Value of an attribute that must not be `None`. -/
def attr (f : σ → Option α) (e : PyErr := .attributeError) : M σ α := fun s =>
  match f s with
  | some a => (.ok a, s)
  | none => (.error e, s)

/-- `for a in l: body(a)`. -/
def forList : List α → (α → M σ Unit) → M σ Unit
  | [], _ => ret ()
  | a :: l, body => do body a; forList l body

/-- `for a in l:` with loop-carried local variables `acc`. -/
def forAcc : List α → β → (β → α → M σ β) → M σ β
  | [], acc, _ => ret acc
  | a :: l, acc, body => do let acc' ← body acc a; forAcc l acc' body

end M
end Dxss
