import Verif.Model.Float64

/-!
# Double precision version of the time stamps of `src/tvemoves_rufbad/simulation.py`

As in `Model/Float64.lean`: numbers are the rational numbers denoted by doubles, every operation rounds.
-/

namespace Tve.F64

/-- `self._tau` (simulation.py:264) -/
def tau (fps : ℚ) : ℚ := fl (1 / fps)

/-- `self._current_time` after `n` steps were appended (simulation.py:265, 352): it starts at `-tau`, and every appended step
adds `tau` -/
def currentTime (fps : ℚ) : ℕ → ℚ
  | 0 => -tau fps
  | n + 1 => fl (currentTime fps n + tau fps)

/-- the time passed to the traction and the external temperature by the `k`-th single step of `run` (simulation.py:327, 333):
two steps were recorded at creation (simulation.py:269, 283), so `k + 1` steps were appended before -/
def runTime (fps : ℚ) (k : ℕ) : ℚ := currentTime fps (k + 1)

end Tve.F64
