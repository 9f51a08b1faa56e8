import Verif.Model.Py
import Mathlib.Analysis.Real.Sqrt

/-! # Real numbers as Python floats -/

namespace Tve

/-- `pyo.sqrt` on real numbers. (tensors.py:69, 291, 433) -/
noncomputable instance : PySqrt ℝ := ⟨Real.sqrt⟩

end Tve
