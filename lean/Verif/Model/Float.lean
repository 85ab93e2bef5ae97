import Mathlib.Data.Int.Log
import Mathlib.Data.Rat.Floor

/-!
# Sample times in double precision

The rest of the model uses exact numbers.  The selection of the sample times in `measured_errors` compares times that were
computed along different ways, so here the roundings are kept.
-/

namespace Dxss.Fl

/-- Nearest integer, ties to even. -/
def roundEven (y : ℚ) : ℤ :=
  if y - ⌊y⌋ < 1 / 2 then ⌊y⌋
  else if 1 / 2 < y - ⌊y⌋ then ⌊y⌋ + 1
  else if ⌊y⌋ % 2 = 0 then ⌊y⌋ else ⌊y⌋ + 1

/-- Rounding of a non-negative number to binary64, round to nearest, ties to even.  Overflow and subnormal numbers are left
out. -/
def fl (x : ℚ) : ℚ := if x = 0 then 0 else roundEven (x / 2 ^ (Int.log 2 x - 52)) * 2 ^ (Int.log 2 x - 52)

/-- `self.delta_t = self.T / self.N`, space_time.py:117. -/
def deltaT (T : ℚ) (N : ℕ) : ℚ := fl (T / N)
/-- `t_n = n * delta_t`, space_time.py:1480. -/
def slabStart (T : ℚ) (N n : ℕ) : ℚ := fl (n * deltaT T N)
/-- `t_n + delta_t`, space_time.py:1522. -/
def slabEnd (T : ℚ) (N n : ℕ) : ℚ := fl (slabStart T N n + deltaT T N)

/-- `np.linspace(0, self.T, 105).tolist()`, space_time.py:224: numpy multiplies `arange` with the step, adds the start,
and then stores the stop value in the last place. -/
def sample (T : ℚ) (i : ℕ) : ℚ := if i = 104 then T else fl (fl (i * fl (T / 104)) + 0)

/-- `if t_sample >= t_n and t_sample <= (t_n + delta_t)`, space_time.py:1522. -/
def inSlab (T : ℚ) (N n : ℕ) (s : ℚ) : Prop := slabStart T N n ≤ s ∧ s ≤ slabEnd T N n

end Dxss.Fl
