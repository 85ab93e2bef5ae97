import Verif.Model.Py
import Mathlib.Data.Rat.Defs
import Mathlib.Algebra.Order.Ring.Rat

/-!
# Polynomials in one symbol

Model of the fragment of sympy used by `get_elmat_time`
(`/repo/src/dxss/precomp_time_int.py:2,10,30-63`): polynomial expressions in the symbol `x`
with rational coefficients, `*`, `+`, `-`, `diff(_, x)` and `integrate(_, (x, 0, 1))`.
A polynomial is its coefficient list, lowest degree first.

Simplification: sympy sees Python floats such as `2/3`; here they are exact rationals.
-/

namespace Dxss

/-- Coefficient list, lowest degree first. -/
abbrev Poly := List ℚ

namespace Poly

/-- the constant polynomial `c` -/
def C (c : ℚ) : Poly := [c]
/-- the symbol `x` (`symbols("x y")`, precomp_time_int.py:10) -/
def X : Poly := [0, 1]

def add : Poly → Poly → Poly
  | [], q => q
  | p, [] => p
  | a :: p, b :: q => (a + b) :: add p q

def smul (c : ℚ) (p : Poly) : Poly := p.map (c * ·)

def neg (p : Poly) : Poly := smul (-1) p
def sub (p q : Poly) : Poly := add p (neg q)

def mul : Poly → Poly → Poly
  | [], _ => []
  | a :: p, q => add (smul a q) (0 :: mul p q)

/-- `diff(p, x)`: helper carrying the exponent of the head coefficient. -/
def derivFrom : ℕ → Poly → Poly
  | _, [] => []
  | n, a :: p => ((n : ℚ) * a) :: derivFrom (n + 1) p

/-- `diff(p, x)` -/
def deriv (p : Poly) : Poly := derivFrom 1 p.tail

/-- `integrate(p, (x, 0, 1))` : Σ aₙ / (n+1). Helper carrying the exponent. -/
def integFrom : ℕ → Poly → ℚ
  | _, [] => 0
  | n, a :: p => a / ((n : ℚ) + 1) + integFrom (n + 1) p

/-- `integrate(p, (x, 0, 1))` -/
def integrate01 (p : Poly) : ℚ := integFrom 0 p

end Poly
end Dxss
