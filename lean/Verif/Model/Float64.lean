import Mathlib.Data.Int.Log
import Mathlib.Data.Rat.Floor

/-!
# Double precision versions of three computations of `src/tvemoves_rufbad/domain.py`

The rest of the model computes with exact numbers. Here Python floats are the rational numbers they denote, and every
arithmetic operation is followed by rounding to 53 significant binary digits, ties to even (IEEE 754 binary64 with unbounded
exponents: overflow and subnormal numbers are not modelled).
-/

namespace Tve.F64

/-- the nearest integer, ties to even (arithmetic of floats, used in all modules; here domain.py:426-427, 555-561) -/
def roundEven (y : ℚ) : ℤ :=
  if y - ⌊y⌋ < 1 / 2 then ⌊y⌋
  else if 1 / 2 < y - ⌊y⌋ then ⌊y⌋ + 1
  else if ⌊y⌋ % 2 = 0 then ⌊y⌋ else ⌊y⌋ + 1

/-- rounding to a double (arithmetic of floats, used in all modules; here domain.py:426-427, 555-561) -/
def fl (x : ℚ) : ℚ :=
  if x = 0 then 0 else roundEven (x / 2 ^ (Int.log 2 |x| - 52)) * 2 ^ (Int.log 2 |x| - 52)

/-- `int(self.width / scale)` (domain.py:426-427) for nonnegative doubles -/
def numCells (width scale : ℚ) : ℤ := ⌊fl (width / scale)⌋

/-- `BarycentricCoordinates(1 - k / n - l / n, k / n)` followed by `assert_bounds()` (domain.py:722-725, tensors.py:127-128,
145-153), for integers `k`, `l`, `n` -/
def fineCoords (n k l : ℕ) : ℚ × ℚ × ℚ :=
  let l1 := fl (fl (1 - fl (k / n)) - fl (l / n))
  let l2 := fl (k / n)
  let l3 := fl (fl (1 - l1) - l2)
  let clamp := fun x : ℚ => if x < 0 then 0 else if x > 1 then 1 else x
  (clamp l1, clamp l2, clamp l3)

/-- one coordinate of `next_point` (domain.py:726-730): `l1 * p1 + l2 * p2 + l3 * p3`, where `a`, `b`, `c` are this coordinate
of the three corners -/
def finePoint (n k l : ℕ) (a b c : ℚ) : ℚ :=
  let w := fineCoords n k l
  fl (fl (fl (w.1 * a) + fl (w.2.1 * b)) + fl (w.2.2 * c))

end Tve.F64
