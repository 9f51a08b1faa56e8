import Verif.Model.Simulation

/-!
# Model of the texts of recorded steps (`AbstractStep.__repr__`, `__str__`)

The text of a numpy array is a parameter `r`; numpy rounds entries to eight digits and abbreviates arrays with more than 1000 entries.
-/

namespace Tve

/-- `AbstractStep.__repr__` (simulation.py:49-50); `r` is `repr` for arrays -/
def Step.reprPy (r : NdArray → String) (s : Step) : String :=
  "Step(y=" ++ r s.yData ++ ", theta=" ++ r s.thetaData ++ ")"

/-- `AbstractStep.__str__` (simulation.py:52-53); `r` is `str` for arrays -/
def Step.strPy (r : NdArray → String) (s : Step) : String :=
  "y:\n" ++ r s.yData ++ "\ntheta:\n" ++ r s.thetaData

end Tve
